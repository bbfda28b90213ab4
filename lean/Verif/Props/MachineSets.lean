import Verif.MachineSetsLemmas
import Verif.Props.SortedSet
import Verif.Props.Machine
import Verif.GoneReads

/-!
# C93: sorted arrays in the integer types of the code

`t` is the `INDEX_TYPE` of the sorted array, any integer type of any width.  `SetM.run t` runs a history with the number of
values kept in `t`; `setRun` (C16) says what a mathematical set holds after the history and what the calls return.
-/

namespace LvArray.Props

open IntTy Spec

variable {T : Type} [LinearOrder T] [Inhabited T]

/-- The number of values is a value of the index type, and twice that number is one of `std::ptrdiff_t` (the buffer asks for
twice the room when it grows). -/
def SizeFits (t : IntTy) (n : Nat) : Prop := (n : Int) ≤ t.max ∧ 2 * (n : Int) ≤ ptrdiff.max

instance (t : IntTy) (n : Nat) : Decidable (SizeFits t n) := inferInstanceAs (Decidable (_ ∧ _))

/-- A capacity that is asked for is a value of the index type and of `std::ptrdiff_t`. -/
def SetRequestFits (t : IntTy) : SetOp T → Prop
  | .reserve n => Representable t n ∧ Representable ptrdiff n
  | _ => True

/-- Every set that occurs in the history fits the index type. -/
def SetHistoryFits (t : IntTy) (limit : Option Nat) : Finset T → List (SetOp T) → Prop
  | S, [] => SizeFits t S.card
  | S, op :: ops => SizeFits t S.card ∧ SetRequestFits t op ∧
      ∀ S' o, setStep limit S op = some (S', o) → SetHistoryFits t limit S' ops

omit [Inhabited T] in
theorem SetHistoryFits.head {t : IntTy} {limit : Option Nat} {S : Finset T} {ops : List (SetOp T)}
    (h : SetHistoryFits t limit S ops) : SizeFits t S.card := by
  cases ops with
  | nil => exact h
  | cons op ops => exact h.1

/-- One legal call. -/
theorem set_stepM {t : IntTy} (hb : 1 ≤ t.bits) {c : Cfg} {limit : Option Nat} {a : SortedArr T} {S S' : Finset T}
    (g : SGood limit a S) (op : SetOp T) {o : SetOut T} (h : setStep limit S op = some (S', o)) (hf : SizeFits t S.card)
    (hf' : SizeFits t S'.card) (hr : SetRequestFits t op) :
    ∃ a', (SetM.of a).step t c op = .ok (SetM.of a', o) ∧ SGood limit a' S' := by
  obtain ⟨a', e, g'⟩ := SortedArr.step_good c g op h
  refine ⟨a', ?_, g'⟩
  have hz := g.size
  have hz' := g'.size
  obtain ⟨f1, f2⟩ := hf
  obtain ⟨f1', f2'⟩ := hf'
  rw [← hz] at f1 f2
  rw [← hz'] at f1' f2'
  cases op with
  | insert v =>
    obtain ⟨r, e1, e2⟩ := bind_eq_ok.mp e
    cases e2
    simp only [SetM.step, SetM.insert_of hb v e1 f1' f2', bind_ok]
  | insertMany vs =>
    obtain ⟨r, e1, e2⟩ := bind_eq_ok.mp e
    cases e2
    simp only [SetM.step, SetM.insertMany_of hb vs e1 f1' f2', bind_ok, Int.toNat_natCast]
  | remove v =>
    obtain ⟨r, e1, e2⟩ := bind_eq_ok.mp e
    cases e2
    have hk : (if r.2 then 1 else 0) ≤ a.size := by
      obtain ⟨a2, e3, -⟩ := SortedArr.remove_good c g v
      rw [e1] at e3
      cases e3
      rw [hz]
      by_cases hv : v ∈ S
      · have := Finset.card_pos.mpr ⟨v, hv⟩
        split <;> omega
      · simp [hv]
    simp only [SetM.step, SetM.remove_of hb v e1 f1 (by omega) hk, bind_ok]
  | removeMany vs =>
    obtain ⟨r, e1, e2⟩ := bind_eq_ok.mp e
    cases e2
    have hk : r.2 ≤ a.size := by
      simp only [setStep, Option.ite_none_right_eq_some, Option.some.injEq, Prod.mk.injEq, SetOut.num.injEq] at h
      rw [← h.2.2, hz]
      exact Finset.card_le_card Finset.inter_subset_left
    simp only [SetM.step, SetM.removeMany_of hb vs e1 f1 (by omega) hk, bind_ok, Int.toNat_natCast]
  | contains v =>
    obtain ⟨r, e1, e2⟩ := bind_eq_ok.mp e
    cases e2
    simp only [SetM.step, SetM.contains_of (c := c) v (show (a.size : Int) ≤ ptrdiff.max by omega), e1, bind_ok]
  | get i =>
    obtain ⟨r, e1, e2⟩ := bind_eq_ok.mp e
    cases e2
    simp only [setStep, Option.ite_none_right_eq_some] at h
    obtain ⟨⟨h0, h1⟩, -⟩ := h
    obtain ⟨k, rfl⟩ := Int.eq_ofNat_of_zero_le h0
    simp only [SetM.step, SetM.get_of (c := c) (a := a) hb (show (k : Int) ≤ t.max by omega) (by omega), e1, bind_ok]
  | reserve n =>
    obtain ⟨r, e1, e2⟩ := bind_eq_ok.mp e
    cases e2
    simp only [SetM.step, SetM.reserve_of (c := c) (a := a) hb hr.1 hr.2 (by omega), e1, bind_ok]
  | clear =>
    obtain ⟨r, e1, e2⟩ := bind_eq_ok.mp e
    cases e2
    simp only [SetM.step, SetM.clear_of (c := c) (a := a) (by omega), e1, bind_ok]

theorem set_runM {t : IntTy} (hb : 1 ≤ t.bits) (c : Cfg) (limit : Option Nat) : ∀ (ops : List (SetOp T)) (a : SortedArr T)
    (S S' : Finset T) (outs : List (SetOut T)), SGood limit a S → setRun limit S ops = some (S', outs) →
    SetHistoryFits t limit S ops →
    ∃ a', (SetM.of a).run t c ops = .ok (SetM.of a', outs) ∧ SGood limit a' S' ∧ SizeFits t S'.card
  | [], a, S, S', outs, g, h, hf => by
    simp only [setRun, Option.some.injEq, Prod.mk.injEq] at h
    obtain ⟨rfl, rfl⟩ := h
    exact ⟨a, rfl, g, hf⟩
  | op :: ops, a, S, S', outs, g, h, hf => by
    simp only [setRun, Option.bind_eq_some_iff, Option.map_eq_some_iff, Prod.mk.injEq] at h
    obtain ⟨⟨S1, o⟩, h1, ⟨S2, os⟩, h2, rfl, rfl⟩ := h
    have hf1 := hf.2.2 S1 o h1
    obtain ⟨a1, e1, g1⟩ := set_stepM (c := c) hb g op h1 hf.1 hf1.head hf.2.1
    obtain ⟨a2, e2, g2, f2⟩ := set_runM hb c limit ops a1 S1 S2 os g1 h2 hf1
    exact ⟨a2, by simp only [SetM.run, e1, bind_ok, e2], g2, f2⟩

/-- **C93 (within the index type).** Whatever integer type was chosen for the sizes: as long as the number of values is a value
of that type (and the requested capacities are), the sorted array is the mathematical set.  Every call returns what it returns
on the set, `size()` is the number of elements, and the array lists them in increasing order. -/
theorem C93_is_set_partial (t : IntTy) (hb : 1 ≤ t.bits) (c : Cfg) (limit : Option Nat) (ops : List (SetOp T)) (S : Finset T)
    (outs : List (SetOut T)) (h : setRun limit ∅ ops = some (S, outs)) (hf : SetHistoryFits t limit ∅ ops) :
    ∃ m, (SetM.of (SortedArr.init T limit)).run t c ops = .ok (m, outs) ∧ m.size = S.card ∧
      (∀ (i : Nat) (hi : i < S.card), m.get t c i = .ok ((S.sort (· ≤ ·))[i]'(by simpa using hi))) ∧
      (∀ v, m.contains c v = .ok (decide (v ∈ S))) := by
  obtain ⟨a, e, g, f1, f2⟩ := set_runM hb c limit ops _ ∅ S outs (set_init_good limit) h hf
  have hz := g.size
  refine ⟨SetM.of a, e, ?_, fun i hi => ?_, fun v => ?_⟩
  · show (a.size : Int) = _
    rw [hz]
  · rw [SetM.get_of hb (by omega) (by omega)]
    exact SortedArr.get_good c g i hi
  · rw [SetM.contains_of v (by omega)]
    exact SortedArr.contains_good c g v

/-- `std::uint8_t`. -/
def uint8 : IntTy := { bits := 8, signed := false }

/-- The history of the example: room for the largest possible number of values, two values, a range, a removal. -/
def byteDemo : List (SetOp Nat) := [.reserve 255, .insert 5, .insertMany [1, 5, 9], .remove 1, .contains 9]

/-- Its hypotheses can be met. -/
theorem byteDemo_fits : SetHistoryFits uint8 none ∅ byteDemo ∧
    setRun none ∅ byteDemo = some ({5, 9}, [.unit, .bool true, .num 2, .bool true, .bool true]) := by
  refine ⟨?_, by decide +kernel⟩
  refine ⟨by decide +kernel, ⟨by decide +kernel, by decide +kernel⟩, fun S o h => ?_⟩
  obtain ⟨rfl, rfl⟩ : S = ∅ ∧ o = .unit := by
    have : setStep (T := Nat) none ∅ (.reserve 255) = some (∅, .unit) := by decide +kernel
    rw [this] at h; cases h; exact ⟨rfl, rfl⟩
  refine ⟨by decide +kernel, trivial, fun S o h => ?_⟩
  obtain ⟨rfl, rfl⟩ : S = {5} ∧ o = .bool true := by
    have : setStep (T := Nat) none ∅ (.insert 5) = some ({5}, .bool true) := by decide +kernel
    rw [this] at h; cases h; exact ⟨rfl, rfl⟩
  refine ⟨by decide +kernel, trivial, fun S o h => ?_⟩
  obtain ⟨rfl, rfl⟩ : S = {1, 5, 9} ∧ o = .num 2 := by
    have : setStep (T := Nat) none {5} (.insertMany [1, 5, 9]) = some ({1, 5, 9}, .num 2) := by decide +kernel
    rw [this] at h; cases h; exact ⟨rfl, rfl⟩
  refine ⟨by decide +kernel, trivial, fun S o h => ?_⟩
  obtain ⟨rfl, rfl⟩ : S = {5, 9} ∧ o = .bool true := by
    have : setStep (T := Nat) none {1, 5, 9} (.remove 1) = some ({5, 9}, .bool true) := by decide +kernel
    rw [this] at h; cases h; exact ⟨rfl, rfl⟩
  refine ⟨by decide +kernel, trivial, fun S o h => ?_⟩
  obtain ⟨rfl, rfl⟩ : S = {5, 9} ∧ o = .bool true := by
    have : setStep (T := Nat) none {5, 9} (.contains 9) = some ({5, 9}, .bool true) := by decide +kernel
    rw [this] at h; cases h; exact ⟨rfl, rfl⟩
  show SizeFits _ _
  decide +kernel

omit [Inhabited T] in
theorem cast_wraps (t : IntTy) (hb : 1 ≤ t.bits) : t.cast (t.max + 1) = t.min := by
  have h1 := two_pow_pos (t.bits - 1)
  have h2 := two_pow_succ t hb
  unfold IntTy.cast IntTy.max IntTy.min
  cases hs : t.signed
  · simp
  · simp only [if_true, true_and, Int.sub_add_cancel]
    rw [Int.emod_eq_of_lt (by omega) (by omega), if_pos (Int.le_refl _)]
    omega

/-- **C93, disagreement, types of at most 16 bits.** Once the set holds as many values as the index type can express, inserting
another one is not rejected: the call reports success and `size()` becomes the smallest value of the type, zero for unsigned
types and a negative number for signed ones.  All values are lost. -/
theorem C93_narrow_wraps (t : IntTy) (h2 : 2 ≤ t.bits) (hw : t.bits ≤ 16) (c : Cfg) (limit : Option Nat) (ops : List (SetOp T))
    (S : Finset T) (outs : List (SetOut T)) (h : setRun limit ∅ ops = some (S, outs)) (hf : SetHistoryFits t limit ∅ ops)
    (hS : (S.card : Int) = t.max) (v : T) (hv : v ∉ S) (hl : fits limit (S.card + 1)) :
    ∃ m m', (SetM.of (SortedArr.init T limit)).run t c ops = .ok (m, outs) ∧ m.size = t.max ∧
      m.insert t c v = .ok (m', true) ∧ m'.size = t.min := by
  have hb : 1 ≤ t.bits := by omega
  obtain ⟨a, e, g, f1, f2⟩ := set_runM hb c limit ops _ ∅ S outs (set_init_good limit) h hf
  have hz := g.size
  have hmax : t.max ≤ 2 ^ 16 - 1 ∧ 1 ≤ t.max := by
    have q1 := two_pow_le (show t.bits ≤ 16 by omega)
    have q2 := two_pow_le (show t.bits - 1 ≤ 16 by omega)
    have q3 := two_pow_le (show 1 ≤ t.bits - 1 by omega)
    have q4 := two_pow_succ t hb
    unfold IntTy.max
    split <;> omega
  have hpd : ptrdiff.max = 2 ^ 63 - 1 := by decide
  have hadd : add t t a.size ((1 : Nat) : Int) = .ok ((a.size + 1 : Nat) : Int) := by
    have hc : common t t = int := by
      have hp : t.promote = int := if_pos (by omega)
      unfold common
      rw [hp]; decide
    have hi : int.max = 2 ^ 31 - 1 := by decide
    have hi' : int.min = -2 ^ 31 := by decide
    unfold IntTy.add
    rw [hc, SetM.cast_nat (t := int) (by decide) (by omega), SetM.cast_nat (t := int) (by decide) (by omega)]
    have : (a.size : Int) + ((1 : Nat) : Int) = ((a.size + 1 : Nat) : Int) := by omega
    rw [this]
    refine fit_ok int (by decide) ⟨by omega, by omega⟩
  obtain ⟨a', ei, g'⟩ := SortedArr.insert_good c g v (by rw [Finset.card_insert_of_notMem hv]; exact hl)
  rw [decide_eq_true hv] at ei
  have hi := SetM.incrementSize_of t c a.size 1 a.buf (by rw [SetM.cast_nat hb (by omega)]; exact hadd) (by omega)
  obtain ⟨e2, e3⟩ := SetM.insert_buf (t := t) v ei (by omega) hi
  refine ⟨SetM.of a, { buf := a'.buf, size := t.min }, e, ?_, ?_, rfl⟩
  · show (a.size : Int) = _
    omega
  · rw [e2]
    simp only [if_true]
    rw [hadd, bind_ok]
    have : ((a.size + 1 : Nat) : Int) = t.max + 1 := by omega
    rw [this, cast_wraps t hb]

/-- **C93, disagreement, signed types of at least the width of `int`.** Inserting a value more than the index type can express is
not rejected: the computation of the new size overflows, which is undefined behaviour. -/
theorem C93_signed_overflow (t : IntTy) (hw : 32 ≤ t.bits) (hs : t.signed = true) (c : Cfg) (limit : Option Nat)
    (ops : List (SetOp T)) (S : Finset T) (outs : List (SetOut T)) (h : setRun limit ∅ ops = some (S, outs))
    (hf : SetHistoryFits t limit ∅ ops) (hS : (S.card : Int) = t.max) (v : T) (hv : v ∉ S) (hl : fits limit (S.card + 1)) :
    ∃ m, (SetM.of (SortedArr.init T limit)).run t c ops = .ok (m, outs) ∧ m.insert t c v = .error (.ub .overflow) := by
  have hb : 1 ≤ t.bits := by omega
  obtain ⟨a, e, g, f1, f2⟩ := set_runM hb c limit ops _ ∅ S outs (set_init_good limit) h hf
  have hz := g.size
  have hone : ((1 : Nat) : Int) ≤ t.max := by
    have q := two_pow_le (show 1 ≤ t.bits - 1 by omega)
    unfold IntTy.max
    rw [if_pos hs]
    omega
  obtain ⟨a', ei, g'⟩ := SortedArr.insert_good c g v (by rw [Finset.card_insert_of_notMem hv]; exact hl)
  rw [decide_eq_true hv] at ei
  unfold SortedArr.insert at ei
  obtain ⟨⟨b, q⟩, e1, e2⟩ := bind_eq_ok.mp ei
  obtain rfl : q = true := by cases e2; rfl
  refine ⟨SetM.of a, e, ?_⟩
  unfold SetM.insert
  rw [SetM.sizeArg_ok c a (by omega), bind_ok]
  have e' : sortedArrayManipulation.insertOne c (SetM.target t c (SetM.of a).size a.size) (SetM.of a).buf a.size v =
      .error (.ub .overflow) := by
    refine sortedArrayManipulation.insertOne_fails c (SortedArr.target c a.size)
      (SetM.target t c (SetM.of a).size a.size).incrementSize a.buf b a.size v e1 ?_
    show (add t t (a.size : Int) (t.cast ((1 : Nat) : Int)) >>= _) = _
    rw [SetM.cast_nat hb hone]
    unfold IntTy.add
    rw [common_wide t hw, SetM.cast_nat hb (by omega), SetM.cast_nat hb hone]
    unfold IntTy.fit
    rw [if_pos hs, if_neg (by omega), bind_err]
  rw [e', bind_err]

/-- **C93, disagreement, unsigned types of at least the width of `int`.** Inserting a value more than the index type can express
is not rejected and makes no room; if the buffer happens to have room, the call reports success and `size()` becomes zero. -/
theorem C93_unsigned_wraps (t : IntTy) (hw : 32 ≤ t.bits) (hs : t.signed = false) (c : Cfg) (limit : Option Nat)
    (ops : List (SetOp T)) (S : Finset T) (outs : List (SetOut T)) (h : setRun limit ∅ ops = some (S, outs))
    (hf : SetHistoryFits t limit ∅ ops) (hS : (S.card : Int) = t.max) (v : T) (hv : v ∉ S) :
    ∃ m, (SetM.of (SortedArr.init T limit)).run t c ops = .ok (m, outs) ∧ m.size = t.max ∧
      (S.card < m.buf.cap → ∃ m', m.insert t c v = .ok (m', true) ∧ m'.size = 0) := by
  have hb : 1 ≤ t.bits := by omega
  obtain ⟨a, e, g, f1, f2⟩ := set_runM hb c limit ops _ ∅ S outs (set_init_good limit) h hf
  have hz := g.size
  refine ⟨SetM.of a, e, ?_, fun hcap => ?_⟩
  · show (a.size : Int) = _
    omega
  have hcap' : a.size + 1 ≤ a.buf.cap := by
    have : S.card < a.buf.cap := hcap
    omega
  have hl : fits limit (Insert.insert v S).card := by
    rw [Finset.card_insert_of_notMem hv, ← hz]
    exact (Good.room g _).mp (Or.inr hcap')
  have hone : ((1 : Nat) : Int) ≤ t.max := by
    have q := two_pow_le (show 1 ≤ t.bits by omega)
    unfold IntTy.max
    rw [if_neg (by simp [hs])]
    omega
  have hmin : t.min = 0 := by unfold IntTy.min; rw [if_neg (by simp [hs])]
  have hwrap := cast_wraps t hb
  have hadd : add t t a.size ((1 : Nat) : Int) = .ok 0 := by
    unfold IntTy.add
    rw [common_wide t hw, SetM.cast_nat hb (by omega), SetM.cast_nat hb hone]
    unfold IntTy.fit
    rw [if_neg (by simp [hs])]
    have : (a.size : Int) + ((1 : Nat) : Int) = t.max + 1 := by omega
    rw [this, hwrap, hmin]
  obtain ⟨a', ei, g'⟩ := SortedArr.insert_good c g v hl
  rw [decide_eq_true hv] at ei
  have hi : (SetM.target t c a.size a.size).incrementSize a.buf 1 = (SortedArr.target c a.size).incrementSize a.buf 1 := by
    show (add t t a.size (t.cast ((1 : Nat) : Int)) >>= _) = bufferManipulation.dynamicReserve c a.buf a.size (a.size + 1)
    rw [SetM.cast_nat hb hone, hadd, bind_ok]
    unfold bufferManipulation.dynamicReserveM bufferManipulation.dynamicReserve
    have h0 : ptrdiff.cast 0 = 0 := by decide
    rw [h0, if_neg (by omega), if_neg (by omega)]
  obtain ⟨e2, e3⟩ := SetM.insert_buf (t := t) v ei (by omega) hi
  refine ⟨{ buf := a'.buf, size := 0 }, ?_, rfl⟩
  rw [e2]
  simp only [if_true]
  rw [hadd, bind_ok]
  have h0 : t.cast 0 = 0 := by
    have := SetM.cast_nat (t := t) (n := 0) hb (by omega)
    simpa using this
  rw [h0]

/-- Making room in a full buffer without growing it leaves the buffer. -/
theorem emplace_outside (c : Cfg) (b : Buf T) (index : Nat) (v : T) (h0 : 0 < b.cap) (hi : index ≤ b.cap) :
    arrayManipulation.emplace c b 0 b.cap index v = .error (.ub .outOfBounds) := by
  have h1 : arrayManipulation.assertNonNull c b 0 = .ok () := by
    unfold arrayManipulation.assertNonNull errorIf
    rw [if_neg]
    simp
    omega
  have h2 : arrayManipulation.checkInsertBounds c b.cap index = .ok () := by
    unfold arrayManipulation.checkInsertBounds errorIf
    rw [if_neg]
    simp
    omega
  unfold arrayManipulation.emplace arrayManipulation.shiftUp
  rw [h1, bind_ok, h2, bind_ok, bind_ok, if_neg (by decide)]
  by_cases he : index = b.cap
  · subst he
    rw [Nat.sub_self]
    have hd : (if b.cap + 1 < b.cap then b.cap + 1 else b.cap) - b.cap = 0 := by
      rw [if_neg (by omega)]; omega
    show (arrayManipulation.destroy c b (0 + b.cap) ((if b.cap + 1 < b.cap then b.cap + 1 else b.cap) - b.cap) >>= _) = _
    rw [hd]
    show b.construct c (0 + b.cap) v = _
    unfold Buf.construct
    rw [if_neg (by omega)]
  · obtain ⟨n, hn⟩ : ∃ n, b.cap - index = n + 1 := ⟨b.cap - index - 1, by omega⟩
    have hm : b.moveConstruct c (0 + index + n + 1) (0 + index + n) = .error (.ub .outOfBounds) := by
      unfold Buf.moveConstruct
      rw [if_neg (by omega)]
    rw [hn]
    simp only [forDown, hm, bind_err]

/-- **C93, disagreement, unsigned types of at least the width of `int`.** When the buffer has no room left, inserting a value
more than the index type can express writes outside the buffer. -/
theorem C93_unsigned_full (t : IntTy) (hw : 32 ≤ t.bits) (hs : t.signed = false) (c : Cfg) (limit : Option Nat)
    (ops : List (SetOp T)) (S : Finset T) (outs : List (SetOut T)) (h : setRun limit ∅ ops = some (S, outs))
    (hf : SetHistoryFits t limit ∅ ops) (hS : (S.card : Int) = t.max) (v : T) (hv : v ∉ S) :
    ∃ m, (SetM.of (SortedArr.init T limit)).run t c ops = .ok (m, outs) ∧
      (m.buf.cap = S.card → m.insert t c v = .error (.ub .outOfBounds)) := by
  have hb : 1 ≤ t.bits := by omega
  obtain ⟨a, e, g, f1, f2⟩ := set_runM hb c limit ops _ ∅ S outs (set_init_good limit) h hf
  have hz := g.size
  refine ⟨SetM.of a, e, fun hcap => ?_⟩
  have hcap' : a.buf.cap = a.size := by
    have : a.buf.cap = S.card := hcap
    omega
  have hone : ((1 : Nat) : Int) ≤ t.max := by
    have q := two_pow_le (show 1 ≤ t.bits by omega)
    unfold IntTy.max
    rw [if_neg (by simp [hs])]
    omega
  have hmin : t.min = 0 := by unfold IntTy.min; rw [if_neg (by simp [hs])]
  have hwrap := cast_wraps t hb
  have hadd : add t t a.size ((1 : Nat) : Int) = .ok 0 := by
    unfold IntTy.add
    rw [common_wide t hw, SetM.cast_nat hb (by omega), SetM.cast_nat hb hone]
    unfold IntTy.fit
    rw [if_neg (by simp [hs])]
    have : (a.size : Int) + ((1 : Nat) : Int) = t.max + 1 := by omega
    rw [this, hwrap, hmin]
  have hinc : (SetM.target t c a.size a.size).incrementSize a.buf 1 = .ok a.buf := by
    show (add t t a.size (t.cast ((1 : Nat) : Int)) >>= _) = _
    rw [SetM.cast_nat hb hone, hadd, bind_ok]
    unfold bufferManipulation.dynamicReserveM
    have h0 : ptrdiff.cast 0 = 0 := by decide
    rw [h0, if_neg (by omega), bufferManipulation.check_ok c a.buf _ (by omega), bind_ok]
  have hl : (S.sort (· ≤ ·)).length = a.size := by rw [hz]; simp
  have hread : ∀ i (hi : i < (S.sort (· ≤ ·)).length), (SetM.target t c a.size a.size).read a.buf i = .ok (id (S.sort (· ≤ ·))[i]) :=
    fun i hi => SortedArr.read_target c g a.size i hi
  have hinc' : sortedArrayManipulation.Increasing id (S.sort (· ≤ ·)) := sort_increasing S
  obtain ⟨f1', f2', q1, q2, q3, q4⟩ := sortedArrayManipulation.insertPosition_split c id _ _ v hinc' hread
  have q5 := sortedArrayManipulation.assertUnique_ok c id hinc' hread
  rw [hl] at q2 q5
  have hle : f1'.length ≤ a.size := by rw [← hl, q1]; simp
  unfold SetM.insert
  rw [SetM.sizeArg_ok c a (by omega), bind_ok]
  have e' : sortedArrayManipulation.insertOne c (SetM.target t c (SetM.of a).size a.size) (SetM.of a).buf a.size v =
      .error (.ub .outOfBounds) := by
    unfold sortedArrayManipulation.insertOne
    show (sortedArrayManipulation.assertRange c ((SetM.target t c a.size a.size).read a.buf) a.size _ >>= _) = _
    rw [q5, bind_ok]
    show (sortedArrayManipulation.insertPosition c ((SetM.target t c a.size a.size).read a.buf) a.size v >>= _) = _
    rw [q2, bind_ok]
    have hat : sortedArrayManipulation.isAt ((SetM.target t c a.size a.size).read a.buf) a.size f1'.length v = .ok false := by
      unfold sortedArrayManipulation.isAt
      by_cases hp : f1'.length = a.size
      · rw [if_pos hp]
      · have hlt : f1'.length < (S.sort (· ≤ ·)).length := by omega
        rw [if_neg hp, hread _ hlt, bind_ok]
        congr 1
        refine decide_eq_false fun heq => hv ?_
        rw [← heq]
        exact (Finset.mem_sort _).mp (List.getElem_mem hlt)
    show (sortedArrayManipulation.isAt ((SetM.target t c a.size a.size).read a.buf) a.size f1'.length v >>= _) = _
    rw [hat, bind_ok, if_neg (by decide)]
    show ((SetM.target t c a.size a.size).incrementSize a.buf 1 >>= _) = _
    rw [hinc, bind_ok]
    show ((arrayManipulation.emplace c a.buf 0 a.size f1'.length v >>= _) >>= _) = _
    rw [← hcap', emplace_outside c a.buf _ v (by omega) (by omega)]
    rfl
  rw [e', bind_err]

/-- **C93, disagreement, ranges.** Inserting at once as many values as the index type has values (or a multiple of that) into
an empty heap allocated set makes no room for them and writes outside the buffer, in every build configuration. -/
theorem C93_range_lost (t : IntTy) (hb : 1 ≤ t.bits) (c : Cfg) (vs : List T) (hv : sortedUnique vs) (k : Nat)
    (hk : vs.length = (k + 1) * 2 ^ t.bits) :
    (SetM.of (SortedArr.init T none)).insertMany t c vs = .error (.ub .outOfBounds) := by
  have hcast : t.cast (vs.length : Int) = 0 := by
    unfold IntTy.cast
    have h1 := two_pow_pos (t.bits - 1)
    rw [hk]
    push_cast
    rw [Int.mul_emod_left, if_neg (by omega)]
  have h0 : ptrdiff.cast 0 = 0 := by decide
  have hz : add t t 0 0 = .ok 0 := by
    have := (max_representable t).2
    have := SetM.add_nat (t := t) (n := 0) (k := 0) hb (by simpa using this)
    simpa using this
  have hpos : vs.length ≠ 0 := by
    have := Nat.pow_pos (n := t.bits) (show 0 < 2 by decide)
    rw [hk]
    exact Nat.mul_ne_zero (by omega) (by omega)
  unfold SetM.insertMany
  have hs : (SetM.of (SortedArr.init T none)).sizeArg c = .ok 0 :=
    SetM.sizeArg_ok c (SortedArr.init T none) (by show ((0 : Nat) : Int) ≤ _; decide)
  rw [hs, bind_ok]
  have hi : sortedArrayManipulation.insertRange c (SetM.target t c (SetM.of (SortedArr.init T none)).size 0)
      (SetM.of (SortedArr.init T none)).buf 0 vs = .error (.ub .outOfBounds) := by
    unfold sortedArrayManipulation.insertRange
    have ha : ∀ read : Nat → R T, sortedArrayManipulation.assertRange c read 0
        (sortedArrayManipulation.isSortedUnique sortedArrayManipulation.less) = .ok () := by
      intro read
      unfold sortedArrayManipulation.assertRange
      cases c.debug <;> rfl
    rw [ha, bind_ok, gone_order hv, bind_ok, if_pos rfl]
    have hinc : (SetM.target t c (SetM.of (SortedArr.init T none)).size 0).incrementSize
        (SetM.of (SortedArr.init T none)).buf vs.length = .ok (Buf.empty : Buf T) := by
      show (add t t 0 (t.cast (vs.length : Int)) >>= _) = _
      rw [hcast, hz, bind_ok, h0]
      cases hb : c.boundsCheck <;> simp [bufferManipulation.dynamicReserveM, bufferManipulation.check, hb] <;> rfl
    rw [hinc, bind_ok]
    obtain ⟨n, hn⟩ : ∃ n, vs.length = n + 1 := ⟨vs.length - 1, by omega⟩
    rw [hn]
    rfl
  rw [hi, bind_err]

/-- The capacity after inserting a range into an empty set. -/
theorem insertMany_cap (c : Cfg) {a : SortedArr T} (g : SGood none a (∅ : Finset T)) (vs : List T) {r : SortedArr T × Nat}
    (e : a.insertMany c vs = .ok r) : r.1.buf.cap = if a.buf.cap < vs.length then 2 * vs.length else a.buf.cap := by
  have hz : a.size = 0 := by rw [g.size]; simp
  unfold SortedArr.insertMany sortedArrayManipulation.insertRange at e
  obtain ⟨q, e1, e2⟩ := bind_eq_ok.mp e
  obtain ⟨-, -, e1⟩ := bind_eq_ok.mp e1
  obtain ⟨-, -, e1⟩ := bind_eq_ok.mp e1
  rw [if_pos hz] at e1
  obtain ⟨b, e3, e1⟩ := bind_eq_ok.mp e1
  obtain ⟨b', e4, e1⟩ := bind_eq_ok.mp e1
  cases e1
  cases e2
  have hcap : b.cap = a.buf.grownCap vs.length := by
    have hroom : a.buf.room vs.length := (Good.room g _).mpr (fun _ h => nomatch h)
    have := bufferManipulation.dynamicReserve_rep c g.rep vs.length hroom
    simp only [Finset.sort_empty, List.length_nil] at this
    have e3' : bufferManipulation.dynamicReserve c a.buf a.size (a.size + vs.length) = .ok b := e3
    rw [hz, Nat.zero_add, this] at e3'
    cases e3'
    rfl
  have := forUp_inv_ok (fun _ (x : Buf T) => x.cap = b.cap) _ _ _ _ rfl (fun i s s' _ _ hP hx => by
    obtain ⟨y, hy, hx⟩ := bind_eq_ok.mp hx
    cases hx
    obtain ⟨z, hz, hy⟩ := bind_eq_ok.mp hy
    cases hy
    have hz : s.construct c (0 + i) (vs.getD i default) = .ok z := hz
    unfold Buf.construct at hz
    split at hz
    · cases hz; exact hP
    · cases hz) e4
  exact this.trans hcap

/-- The hypotheses of the theorems above can be met for every index type in which twice the largest value is one of
`std::ptrdiff_t`: insert the numbers below the largest value of the type.  Without a reservation the buffer then has room
left, with one it is full. -/
theorem C93_reached (t : IntTy) (hb : 1 ≤ t.bits) (c : Cfg) (n : Nat) (hn : (n : Int) = t.max) (h2 : 2 * (n : Int) ≤ ptrdiff.max)
    (res : Bool) :
    SetHistoryFits t none (∅ : Finset Nat) [.reserve (if res then n else 0), .insertMany (List.range n)] ∧
    setRun none (∅ : Finset Nat) [.reserve (if res then n else 0), .insertMany (List.range n)] =
      some (Finset.range n, [.unit, .num n]) ∧
    (((Finset.range n).card : Nat) : Int) = t.max ∧ n ∉ Finset.range n ∧
    ∃ m, (SetM.of (SortedArr.init Nat none)).run t c [.reserve (if res then n else 0), .insertMany (List.range n)] =
        .ok (m, [.unit, .num n]) ∧ m.buf.cap = if res then n else 2 * n := by
  have hr : (List.range n).toFinset = Finset.range n := by ext x; simp
  have hs : sortedUnique (List.range n) := List.pairwise_lt_range
  have hmax := (max_representable t).2
  have hres : ∀ k : Int, setStep none (∅ : Finset Nat) (.reserve k) = some (∅, .unit) := by
    intro k
    simp only [setStep]
    rw [if_pos (show fits none k.toNat from fun _ h => nomatch h)]
  have hstep : setStep none (∅ : Finset Nat) (.insertMany (List.range n)) = some (Finset.range n, .num n) := by
    simp only [setStep]
    rw [if_pos ⟨hs, fun _ h => nomatch h⟩, hr]
    simp
  have hrun : setRun none (∅ : Finset Nat) [.reserve (if res then n else 0), .insertMany (List.range n)] =
      some (Finset.range n, [.unit, .num n]) := by
    simp only [setRun, hres, hstep, Option.bind_some, Option.map_some]
  have hz : SizeFits t (Finset.range n).card := by
    rw [Finset.card_range]; exact ⟨by omega, h2⟩
  have hz0 : SizeFits t (∅ : Finset Nat).card := ⟨by simpa using hmax, by simp; decide⟩
  have hreq : ∀ s : IntTy, (n : Int) ≤ s.max → Representable s (if res then (n : Int) else 0) := by
    intro s h
    have := (max_representable s).2
    refine rep_of_nonneg s ?_ ?_ <;> split <;> omega
  have hfit : SetHistoryFits t none (∅ : Finset Nat) [.reserve (if res then n else 0), .insertMany (List.range n)] := by
    refine ⟨hz0, ⟨hreq t (by omega), hreq ptrdiff (by omega)⟩, fun S o h => ?_⟩
    rw [hres] at h
    cases h
    refine ⟨hz0, trivial, fun S o h => ?_⟩
    rw [hstep] at h; cases h; exact hz
  refine ⟨hfit, hrun, by rw [Finset.card_range, hn], by simp, ?_⟩
  have hroom0 : (SortedArr.init Nat none).buf.room (if res then (n : Int) else 0).toNat := Or.inl rfl
  have e0 := bufferManipulation.reserve_rep c (set_init_good (T := Nat) none).rep _ hroom0
  obtain ⟨a0, e1, g0, -⟩ := SortedArr.reserve_good c (set_init_good (T := Nat) none) (if res then (n : Int) else 0)
    (fun _ h => nomatch h)
  have hcap0 : a0.buf.cap = if res then n else 0 := by
    simp only [Finset.sort_empty, List.length_nil] at e0
    unfold SortedArr.reserve at e1
    rw [show (SortedArr.init Nat none).size = 0 from rfl, e0, bind_ok] at e1
    cases e1
    show max 0 _ = _
    cases res <;> simp
  obtain ⟨a, e, g⟩ := SortedArr.insertMany_good c g0 (List.range n) hs (fun _ h => nomatch h)
  rw [Finset.empty_union, hr] at g
  have hcard : ((List.range n).toFinset \ ∅).card = n := by rw [hr]; simp
  rw [hcard] at e
  have hsz : a.size = n := by rw [g.size, Finset.card_range]
  have em := SetM.insertMany_of (t := t) hb (List.range n) e (by rw [hsz]; omega) (by rw [hsz]; exact h2)
  have er := SetM.reserve_of (t := t) (c := c) (a := SortedArr.init Nat none) hb (hreq t (by omega)) (hreq ptrdiff (by omega))
    (show ((0 : Nat) : Int) ≤ _ by decide)
  rw [e1, bind_ok] at er
  refine ⟨SetM.of a, ?_, ?_⟩
  · simp only [SetM.run, SetM.step, er, em, bind_ok, Int.toNat_natCast]
  · show a.buf.cap = _
    have : a.buf.cap = _ := insertMany_cap c g0 (List.range n) e
    rw [this, hcap0, List.length_range]
    cases res
    · simp only [Bool.false_eq_true, if_false]
      split <;> omega
    · simp

example (c : Cfg) : ∃ m m' : SetM Nat,
    (SetM.of (SortedArr.init Nat none)).run uint8 c [.reserve 0, .insertMany (List.range 255)] = .ok (m, [.unit, .num 255]) ∧
      m.size = 255 ∧ m.insert uint8 c 255 = .ok (m', true) ∧ m'.size = 0 := by
  have h := C93_reached uint8 (by decide) c 255 (by decide) (by decide) false
  have hm : uint8.max = 255 ∧ uint8.min = 0 := by decide
  obtain ⟨m, m', e1, e2, e3, e4⟩ := C93_narrow_wraps uint8 (by decide) (by decide) c none _ _ _ h.2.1 h.1 h.2.2.1 255 h.2.2.2.1
    (fun _ h => nomatch h)
  exact ⟨m, m', e1, by rw [e2, hm.1], e3, by rw [e4, hm.2]⟩

example : (ptrdiff.max : Int) = 2 ^ 63 - 1 ∧ uint8.max = 255 ∧ uint32.max = 2 ^ 32 - 1 ∧ int.max = 2 ^ 31 - 1 := by decide

end LvArray.Props

import Verif.IntConv
import Mathlib.Data.Nat.Basic
/-!
# C34, C44, C46, C48: integer conversion, error macros, signal handlers, floating point guards
-/

namespace LvArray.Props

open LvArray

/-! ## C34 -/

/-- The integer `x` is a value of type `t`. -/
def Representable (t : IntTy) (x : Int) : Prop := t.min ≤ x ∧ x ≤ t.max

theorem two_pow_succ (t : IntTy) (h : 1 ≤ t.bits) : (2 : Int) ^ t.bits = 2 * 2 ^ (t.bits - 1) := by
  obtain ⟨n, hn⟩ : ∃ n, t.bits = n + 1 := ⟨t.bits - 1, by omega⟩
  rw [hn, Int.pow_succ, Nat.add_sub_cancel]; omega

theorem two_pow_pos (n : Nat) : (0 : Int) < 2 ^ n := Int.pow_pos (by decide)

theorem two_pow_le {a b : Nat} (h : a ≤ b) : (2 : Int) ^ a ≤ 2 ^ b := by
  have := Nat.pow_le_pow_right (n := 2) (by decide) h
  exact_mod_cast this

theorem cast_of_representable (t : IntTy) (h : 1 ≤ t.bits) (x : Int) (hx : Representable t x) : t.cast x = x := by
  obtain ⟨h1, h2⟩ := hx
  have hp := two_pow_succ t h
  have hq := two_pow_pos (t.bits - 1)
  unfold IntTy.min at h1
  unfold IntTy.max at h2
  unfold IntTy.cast
  by_cases hs : t.signed = true
  · rw [if_pos hs] at h1 h2
    by_cases h0 : 0 ≤ x
    · have : x % (2 : Int) ^ t.bits = x := Int.emod_eq_of_lt h0 (by omega)
      simp only [this]
      rw [if_neg (by omega)]
    · have : x % (2 : Int) ^ t.bits = x + 2 ^ t.bits := by
        rw [← Int.add_emod_right]
        exact Int.emod_eq_of_lt (by omega) (by omega)
      simp only [this, hs, true_and]
      rw [if_pos (by omega)]; omega
  · rw [if_neg hs] at h1 h2
    have : x % (2 : Int) ^ t.bits = x := Int.emod_eq_of_lt h1 (by omega)
    simp only [this, hs]
    simp

theorem promote_bits (t : IntTy) (h : 1 ≤ t.bits) : 1 ≤ t.promote.bits := by
  unfold IntTy.promote; split
  · decide
  · exact h

theorem promote_representable (t : IntTy) (x : Int) (hx : Representable t x) : Representable t.promote x := by
  unfold IntTy.promote
  split
  · rename_i hb
    obtain ⟨h1, h2⟩ := hx
    unfold IntTy.min at h1
    unfold IntTy.max at h2
    have e1 : (2 : Int) ^ (t.bits - 1) ≤ 2 ^ 31 := two_pow_le (by omega)
    have e2 : (2 : Int) ^ t.bits ≤ 2 ^ 31 := two_pow_le (by omega)
    have e3 : (2 : Int) ^ 31 = 2147483648 := by decide
    unfold Representable IntTy.min IntTy.max
    simp only [if_true]
    split at h1 <;> simp_all <;> omega
  · exact hx

theorem representable_mono {s t : IntTy} (h : s.bits ≤ t.bits) (he : s.signed = t.signed) {x : Int}
    (hx : Representable s x) : Representable t x := by
  obtain ⟨h1, h2⟩ := hx
  unfold IntTy.min at h1
  unfold IntTy.max at h2
  unfold Representable IntTy.min IntTy.max
  rw [he] at h1 h2
  have e1 : (2 : Int) ^ (s.bits - 1) ≤ 2 ^ (t.bits - 1) := two_pow_le (by omega)
  have e2 : (2 : Int) ^ s.bits ≤ 2 ^ t.bits := two_pow_le h
  split at h1 <;> simp_all <;> omega

theorem representable_of_nonneg {s t : IntTy} (h : (if t.signed then s.bits ≤ t.bits - 1 ∨ (s.signed = true ∧ s.bits ≤ t.bits)
      else s.bits ≤ t.bits)) {x : Int} (hx : Representable s x) (h0 : 0 ≤ x) : Representable t x := by
  obtain ⟨-, h2⟩ := hx
  unfold IntTy.max at h2
  have hs : (2 : Int) ^ (s.bits - 1) ≤ 2 ^ s.bits := two_pow_le (by omega)
  have hxb : x ≤ 2 ^ s.bits - 1 := by split at h2 <;> omega
  have hp := two_pow_pos (t.bits - 1)
  unfold Representable IntTy.min IntTy.max
  by_cases ht : t.signed = true
  · simp only [ht, if_true] at h ⊢
    refine ⟨by omega, ?_⟩
    rcases h with h | ⟨h3, h4⟩
    · have : (2 : Int) ^ s.bits ≤ 2 ^ (t.bits - 1) := two_pow_le h
      omega
    · rw [if_pos h3] at h2
      have : (2 : Int) ^ (s.bits - 1) ≤ 2 ^ (t.bits - 1) := two_pow_le (by omega)
      omega
  · simp only [ht] at h ⊢
    simp at h ⊢
    have : (2 : Int) ^ s.bits ≤ 2 ^ t.bits := two_pow_le h
    exact ⟨h0, by omega⟩

theorem common_bits (a b : IntTy) (ha : 1 ≤ a.bits) (hb : 1 ≤ b.bits) : 1 ≤ (IntTy.common a b).bits := by
  have h1 := promote_bits a ha
  have h2 := promote_bits b hb
  unfold IntTy.common
  dsimp only
  split
  · split <;> assumption
  · split <;> split <;> assumption

/-- Both operands of a comparison survive the usual arithmetic conversions when they are non-negative or both types are
signed. -/
theorem common_representable (a b : IntTy) {x y : Int} (hx : Representable a x) (hy : Representable b y)
    (h : (a.signed = true ∧ b.signed = true) ∨ (0 ≤ x ∧ 0 ≤ y)) :
    Representable (IntTy.common a b) x ∧ Representable (IntTy.common a b) y := by
  have hx' := promote_representable a x hx
  have hy' := promote_representable b y hy
  have hsig : (a.promote.signed = true ∧ b.promote.signed = true) ∨ (0 ≤ x ∧ 0 ≤ y) := by
    rcases h with ⟨h1, h2⟩ | h
    · left
      unfold IntTy.promote
      constructor <;> split <;> simp_all
    · exact Or.inr h
  unfold IntTy.common
  generalize a.promote = p at *
  generalize b.promote = q at *
  dsimp only
  by_cases he : p.signed = q.signed
  · rw [if_pos he]
    by_cases hb : p.bits < q.bits
    · rw [if_pos hb]
      exact ⟨representable_mono (by omega) he hx', hy'⟩
    · rw [if_neg hb]
      exact ⟨hx', representable_mono (by omega) he.symm hy'⟩
  · rw [if_neg he]
    have h0 : 0 ≤ x ∧ 0 ≤ y := by
      rcases hsig with ⟨h1, h2⟩ | h
      · exact absurd (h1.trans h2.symm) he
      · exact h
    cases hp : p.signed with
    | true =>
      have hq : q.signed = false := by
        cases hq : q.signed with
        | false => rfl
        | true => exact absurd (hp.trans hq.symm) he
      simp only [if_true]
      split
      · rename_i hle
        exact ⟨representable_of_nonneg (by simp [hq]; omega) hx' h0.1, hy'⟩
      · rename_i hle
        exact ⟨hx', representable_of_nonneg (by simp [hp]; omega) hy' h0.2⟩
    | false =>
      have hq : q.signed = true := by
        cases hq : q.signed with
        | true => rfl
        | false => exact absurd (hp.trans hq.symm) he
      simp only [Bool.false_eq_true, if_false]
      split
      · rename_i hle
        exact ⟨hx', representable_of_nonneg (by simp [hp]; omega) hy' h0.2⟩
      · rename_i hle
        exact ⟨representable_of_nonneg (by simp [hq]; omega) hx' h0.1, hy'⟩

theorem gt_exact (a b : IntTy) (ha : 1 ≤ a.bits) (hb : 1 ≤ b.bits) {x y : Int} (hx : Representable a x)
    (hy : Representable b y) (h : (a.signed = true ∧ b.signed = true) ∨ (0 ≤ x ∧ 0 ≤ y)) :
    IntTy.gt a b x y = decide (y < x) := by
  obtain ⟨h1, h2⟩ := common_representable a b hx hy h
  have hc := common_bits a b ha hb
  unfold IntTy.gt
  rw [cast_of_representable _ hc _ h1, cast_of_representable _ hc _ h2]

theorem lt_exact (a b : IntTy) (ha : 1 ≤ a.bits) (hb : 1 ≤ b.bits) {x y : Int} (hx : Representable a x)
    (hy : Representable b y) (h : (a.signed = true ∧ b.signed = true) ∨ (0 ≤ x ∧ 0 ≤ y)) :
    IntTy.lt a b x y = decide (x < y) := by
  obtain ⟨h1, h2⟩ := common_representable a b hx hy h
  have hc := common_bits a b ha hb
  unfold IntTy.lt
  rw [cast_of_representable _ hc _ h1, cast_of_representable _ hc _ h2]

theorem max_representable (t : IntTy) : Representable t t.max ∧ 0 ≤ t.max := by
  have h1 := two_pow_pos (t.bits - 1)
  have h2 := two_pow_pos t.bits
  unfold Representable IntTy.min IntTy.max
  split <;> omega

/-- The single situation in which the conversion is wrong: a negative value of a signed type converted to a wider unsigned
type. -/
def WrapsSilently (input output : IntTy) (x : Int) : Prop :=
  input.signed = true ∧ output.signed = false ∧ input.bits < output.bits ∧ x < 0

/-- **C34 (partial).** For every pair of integer types of any width and every value of the input type, except negative values
going to a strictly wider unsigned type, the conversion returns the same integer when the output type can represent it
and aborts when it cannot.  Missing for the full property: the excluded case, where it is false
(`C34_negative_to_wider_unsigned`). -/
theorem C34_integerConversion_partial (input output : IntTy) (hi : 1 ≤ input.bits) (ho : 1 ≤ output.bits) (x : Int)
    (hx : Representable input x) (hw : ¬ WrapsSilently input output x) :
    (Representable output x → IntTy.integerConversion input output x = .ok x) ∧
    (¬ Representable output x → IntTy.integerConversion input output x = .error .abort) := by
  have hmaxo := max_representable output
  unfold IntTy.integerConversion
  by_cases he : IntTy.canEasilyConvert input output = true
  · rw [if_pos he]
    have hrep : Representable output x := by
      unfold IntTy.canEasilyConvert at he
      simp only [Bool.or_eq_true, Bool.and_eq_true, decide_eq_true_eq] at he
      rcases he with hlt | ⟨heq, hss⟩
      · by_cases hsi : input.signed = output.signed
        · exact representable_mono (by omega) hsi hx
        · have h0 : 0 ≤ x := by
            cases h1 : input.signed with
            | false =>
              have := hx.1
              unfold IntTy.min at this
              rw [h1] at this
              simpa using this
            | true =>
              have h2 : output.signed = false := by
                cases h2 : output.signed with
                | false => rfl
                | true => exact absurd (h1.trans h2.symm) hsi
              exact Decidable.byContradiction (fun hn => hw ⟨h1, h2, hlt, by omega⟩)
          refine representable_of_nonneg ?_ hx h0
          split <;> omega
      · refine representable_mono (by omega) ?_ hx
        unfold IntTy.sameSignedness at hss
        cases h1 : input.signed <;> cases h2 : output.signed <;> simp_all
    exact ⟨fun _ => by rw [cast_of_representable output ho x hrep], fun h => absurd hrep h⟩
  · rw [if_neg he]
    by_cases hs : input.signed = true
    · simp only [hs, Bool.not_true, Bool.false_eq_true, if_false]
      have hmin : Representable output.makeSigned output.min := by
        unfold Representable IntTy.makeSigned IntTy.min IntTy.max
        have h1 := two_pow_pos (output.bits - 1)
        simp only [if_true]
        split <;> omega
      have hlt := lt_exact input output.makeSigned hi ho hx hmin (Or.inl ⟨hs, rfl⟩)
      rw [hlt]
      by_cases h1 : x < output.min
      · rw [decide_eq_true h1]
        refine ⟨fun h => absurd h.1 (by omega), fun _ => rfl⟩
      · rw [decide_eq_false h1, errorIf_false, bind_ok]
        have hcu : IntTy.gt (if (!output.signed) = true then input.makeUnsigned else input) output
            ((if (!output.signed) = true then input.makeUnsigned else input).cast x) output.max = decide (output.max < x) := by
          cases hos : output.signed with
          | true =>
            simp only [Bool.not_true, Bool.false_eq_true, if_false]
            rw [cast_of_representable input hi x hx]
            exact gt_exact input output hi ho hx hmaxo.1 (Or.inl ⟨hs, hos⟩)
          | false =>
            simp only [Bool.not_false, if_true]
            have h0 : 0 ≤ x := by
              unfold IntTy.min at h1
              rw [hos] at h1
              simpa using h1
            have hxu : Representable input.makeUnsigned x := by
              refine representable_of_nonneg ?_ hx h0
              simp [IntTy.makeUnsigned]
            rw [cast_of_representable input.makeUnsigned hi x hxu]
            exact gt_exact input.makeUnsigned output hi ho hxu hmaxo.1 (Or.inr ⟨h0, hmaxo.2⟩)
        rw [hcu]
        by_cases h2 : output.max < x
        · rw [decide_eq_true h2]
          exact ⟨fun h => absurd h.2 (by omega), fun _ => rfl⟩
        · rw [decide_eq_false h2, errorIf_false, bind_ok]
          have hrep : Representable output x := ⟨by omega, by omega⟩
          exact ⟨fun _ => by rw [cast_of_representable output ho x hrep], fun h => absurd hrep h⟩
    · simp only [hs, Bool.not_false, if_true]
      have h0 : 0 ≤ x := by
        have := hx.1
        unfold IntTy.min at this
        rw [if_neg hs] at this
        exact this
      rw [gt_exact input output hi ho hx hmaxo.1 (Or.inr ⟨h0, hmaxo.2⟩)]
      by_cases h2 : output.max < x
      · rw [decide_eq_true h2]
        exact ⟨fun h => absurd h.2 (by omega), fun _ => rfl⟩
      · rw [decide_eq_false h2, errorIf_false, bind_ok]
        have hrep : Representable output x := by
          refine ⟨?_, by omega⟩
          unfold IntTy.min
          have := two_pow_pos (output.bits - 1)
          split <;> omega
        exact ⟨fun _ => by rw [cast_of_representable output ho x hrep], fun h => absurd hrep h⟩

-- a 64 bit signed value to 32 bits, in range and out of range, and an unsigned value that does not fit
example : IntTy.integerConversion ⟨64, true⟩ ⟨32, true⟩ (-5) = .ok (-5) ∧
    IntTy.integerConversion ⟨64, true⟩ ⟨32, false⟩ (-5) = .error .abort ∧
    IntTy.integerConversion ⟨64, false⟩ ⟨64, true⟩ (2 ^ 63) = .error .abort ∧
    IntTy.integerConversion ⟨64, true⟩ ⟨8, true⟩ 127 = .ok 127 := by decide

/-- **C34, disagreement.** Every negative value of a signed type converted to a wider unsigned type is silently returned as a
different number: `canEasilyConvert` ignores signedness when the output is wider. -/
theorem C34_negative_to_wider_unsigned (input output : IntTy) (hi : 1 ≤ input.bits) (x : Int) (hx : Representable input x)
    (hw : WrapsSilently input output x) :
    ¬ Representable output x ∧ IntTy.integerConversion input output x = .ok (x + 2 ^ output.bits) ∧
      x + 2 ^ output.bits ≠ x := by
  obtain ⟨h1, h2, h3, h4⟩ := hw
  have hp := two_pow_pos output.bits
  have hx1 := hx.1
  unfold IntTy.min at hx1
  rw [if_pos h1] at hx1
  have hle : (2 : Int) ^ (input.bits - 1) ≤ 2 ^ output.bits := two_pow_le (by omega)
  refine ⟨?_, ?_, by omega⟩
  · intro h
    have := h.1
    unfold IntTy.min at this
    rw [h2] at this
    simp at this
    omega
  · unfold IntTy.integerConversion
    rw [if_pos (by simp [IntTy.canEasilyConvert, h3])]
    unfold IntTy.cast
    have : x % (2 : Int) ^ output.bits = x + 2 ^ output.bits := by
      rw [← Int.add_emod_right]
      exact Int.emod_eq_of_lt (by omega) (by omega)
    simp [this, h2]

example : WrapsSilently ⟨32, true⟩ ⟨64, false⟩ (-1) ∧ Representable ⟨32, true⟩ (-1) ∧
    IntTy.integerConversion ⟨32, true⟩ ⟨64, false⟩ (-1) = .ok 18446744073709551615 := by
  refine ⟨⟨rfl, rfl, by decide, by decide⟩, ⟨by decide, by decide⟩, by decide⟩

/-! ## C44 -/

/-- The relation a macro's name refers to. -/
def Named {T : Type} [LinearOrder T] : Rel → T → T → Prop
  | .eq, a, b => a = b
  | .ne, a, b => a ≠ b
  | .gt, a, b => a > b
  | .ge, a, b => a ≥ b
  | .lt, a, b => a < b
  | .le, a, b => a ≤ b

/-- Does the macro report when the relation holds (ERROR_IF, THROW_IF) or when it does not (ASSERT)? -/
def MacroForm.isAssert : MacroForm → Bool
  | .assert => true
  | .assertMsg => true
  | _ => false

/-- **C44 (partial).** Every comparison macro except `LVARRAY_ERROR_IF_LE` and `LVARRAY_THROW_IF_LE` reports an error exactly
when the relation in its name holds (ERROR_IF, THROW_IF) or, in builds with assertions, exactly when it does not hold
(ASSERT).  Missing: the two LE macros without a message, see `C44_error_if_le`. -/
theorem C44_macros_partial {T : Type} [LinearOrder T] (c : Cfg) (form : MacroForm) (rel : Rel) (a b : T)
    (h : ¬ (rel = .le ∧ (form = .errorIf ∨ form = .throwIf))) :
    macroFails c form rel a b = true ↔
      (if MacroForm.isAssert form then c.debug = true ∧ ¬ Named rel a b else Named rel a b) := by
  cases form <;> cases rel <;> simp_all [macroFails, macroOp, opHolds, Named, MacroForm.isAssert]

example : macroFails ⟨true, true, true⟩ .errorIf .lt 2 3 = true ∧ macroFails ⟨true, true, true⟩ .assert .ge 2 3 = true ∧
    macroFails ⟨true, true, false⟩ .assert .ge 2 3 = false ∧ macroFails ⟨true, true, true⟩ .throwIfMsg .le 3 3 = true := by
  decide

/-- **C44, disagreement.** `LVARRAY_ERROR_IF_LE( a, b )` and `LVARRAY_THROW_IF_LE( a, b )` report exactly when `a ≥ b`: they
are wrong for every pair of different values. -/
theorem C44_error_if_le {T : Type} [LinearOrder T] (c : Cfg) (form : MacroForm) (hf : form = .errorIf ∨ form = .throwIf)
    (a b : T) (hne : a ≠ b) : macroFails c form .le a b = true ↔ ¬ Named .le a b := by
  rcases hf with rfl | rfl <;> simp only [macroFails, macroOp, opHolds, Named, decide_eq_true_eq, not_le] <;>
    exact ⟨fun h => lt_of_le_of_ne h (Ne.symm hne), le_of_lt⟩

example : macroFails ⟨true, true, true⟩ .errorIf .le 1 2 = false ∧ macroFails ⟨true, true, true⟩ .errorIf .le 2 1 = true := by
  decide

/-! ## C46 -/

theorem setOne_current (h : Handler) (hh : h ≠ .err) (w : SigWorld) (s k : Nat) :
    (setOne h w s).current k = if k = s ∧ uncatchable s = false then h else w.current k := by
  unfold setOne sysSignal
  cases hu : uncatchable s <;> simp [hh]

theorem setOne_saved (h : Handler) (hh : h ≠ .err) (w : SigWorld) (s k : Nat) :
    (setOne h w s).saved k = if k = s then some (if uncatchable s then .err else w.current s) else w.saved k := by
  unfold setOne sysSignal
  cases hu : uncatchable s <;> simp [hh]

theorem setSignals_spec (h : Handler) (hh : h ≠ .err) : ∀ (managed : List Nat) (w : SigWorld), managed.Nodup →
    (∀ k, (setSignalHandling managed h w).current k = if k ∈ managed ∧ uncatchable k = false then h else w.current k) ∧
    (∀ k, (setSignalHandling managed h w).saved k =
      if k ∈ managed then some (if uncatchable k then .err else w.current k) else w.saved k) := by
  intro managed
  induction managed with
  | nil => intro w _; simp [setSignalHandling]
  | cons s rest ih =>
    intro w hn
    rw [List.nodup_cons] at hn
    obtain ⟨h1, h2⟩ := ih (setOne h w s) hn.2
    have hstep : setSignalHandling (s :: rest) h w = setSignalHandling rest h (setOne h w s) := rfl
    rw [hstep]
    refine ⟨fun k => ?_, fun k => ?_⟩
    · rw [h1 k, setOne_current h hh]
      by_cases hk : k = s
      · subst hk; simp [hn.1]
      · simp [hk]
    · rw [h2 k, setOne_saved h hh, setOne_current h hh]
      by_cases hk : k = s
      · subst hk; simp [hn.1]
      · simp [hk]

theorem reset_spec : ∀ (keys : List Nat) (w : SigWorld), keys.Nodup →
    ∀ k, (resetSignalHandling keys w).current k =
      if k ∈ keys ∧ uncatchable k = false then
        (match w.saved k with
          | some h => if h = .err then w.current k else h
          | none => w.current k)
      else w.current k := by
  intro keys
  induction keys with
  | nil => intro w _ k; simp [resetSignalHandling]
  | cons s rest ih =>
    intro w hn k
    rw [List.nodup_cons] at hn
    have hstep : resetSignalHandling (s :: rest) w = resetSignalHandling rest (match w.saved s with
      | some h => (sysSignal w s h).1
      | none => w) := rfl
    rw [hstep, ih _ hn.2 k]
    cases hs : w.saved s with
    | none =>
      simp only
      by_cases hk : k = s
      · subst hk; simp [hn.1, hs]
      · simp [hk]
    | some h =>
      simp only [sysSignal]
      by_cases hk : k = s
      · subst hk
        cases hu : uncatchable k with
        | true => simp [hn.1]
        | false =>
          by_cases he : h = .err
          · simp [hn.1, hs, he]
          · simp [hn.1, hs, he]
      · by_cases hc : (uncatchable s || h == .err) = true
        · simp [hk, hc]
        · simp [hk, hc]

/-- **C46 (partial).** If the platform's list of signals has no duplicate (Linux), then one `setSignalHandling` with any
handler installs it for every catchable managed signal, and the following `resetSignalHandling` gives every signal of the
process back the disposition it had before, whatever those were.  Missing for the full property: a second
`setSignalHandling` before the reset (`C46_second_call_loses_handlers`). -/
theorem C46_reset_restores_partial (managed : List Nat) (hn : managed.Nodup) (h : Handler) (hh : h ≠ .err) (w : SigWorld)
    (hvalid : ∀ s, w.current s ≠ .err) :
    (∀ s, s ∈ managed → uncatchable s = false → (setSignalHandling managed h w).current s = h) ∧
    (∀ s, (resetSignalHandling managed (setSignalHandling managed h w)).current s = w.current s) := by
  obtain ⟨h1, h2⟩ := setSignals_spec h hh managed w hn
  refine ⟨fun s hs hu => by rw [h1 s, if_pos ⟨hs, hu⟩], fun s => ?_⟩
  rw [reset_spec managed _ hn s, h1 s, h2 s]
  by_cases hs : s ∈ managed
  · cases hu : uncatchable s with
    | true => simp
    | false => simp [hs, hvalid s]
  · simp [hs]

example : linuxSignals.Nodup ∧ (∀ s, (fun s => if s = 2 then Handler.user 7 else .dfl) s ≠ Handler.err) :=
  ⟨by decide, by intro s; dsimp only; split <;> simp⟩

/-- **C46, disagreement.** Two calls of `setSignalHandling` with handlers `h1` and `h2` forget the original dispositions: the
reset installs `h1` for every managed catchable signal. -/
theorem C46_second_call_loses_handlers (managed : List Nat) (hn : managed.Nodup) (h1 h2 : Handler) (hh1 : h1 ≠ .err)
    (hh2 : h2 ≠ .err) (w : SigWorld) (s : Nat) (hs : s ∈ managed) (hu : uncatchable s = false) :
    (resetSignalHandling managed (setSignalHandling managed h2 (setSignalHandling managed h1 w))).current s = h1 := by
  obtain ⟨a1, -⟩ := setSignals_spec h1 hh1 managed w hn
  obtain ⟨-, b2⟩ := setSignals_spec h2 hh2 managed (setSignalHandling managed h1 w) hn
  rw [reset_spec managed _ hn s, b2 s, a1 s]
  simp [hs, hu, hh1]

/-- **C46, disagreement.** On the other branch of the code (macOS) the list contains SIGABRT twice, as SIGABRT and as SIGIOT:
already after one call and a reset the handler of SIGABRT is the installed one instead of the original. -/
theorem C46_sigabrt_listed_twice :
    ¬ macSignals.Nodup ∧
    (resetSignalHandling macSignals (setSignalHandling macSignals (.user 1) ⟨fun _ => .dfl, fun _ => none⟩)).current 6
      = .user 1 := by decide

/-! ## C48 -/

/-- The program changes the environment only through guards. -/
def FpProg.guarded : FpProg → Prop
  | .skip => True
  | .disable _ => True
  | .enable _ => False
  | .seq p q => FpProg.guarded p ∧ FpProg.guarded q
  | .guard _ p => FpProg.guarded p

theorem FpProg.run_le : ∀ (p : FpProg) (e : FpEnv), FpProg.guarded p → ∀ k, p.run e k = true → e k = true
  | .skip, e, _, k, h => h
  | .disable ex, e, _, k, h => by
    simp only [FpProg.run, fpDisable, Bool.and_eq_true] at h
    exact h.1
  | .enable ex, e, hg, k, h => hg.elim
  | .seq p q, e, hg, k, h => run_le p e hg.1 k (run_le q _ hg.2 k h)
  | .guard ex p, e, hg, k, h => by
    simp only [FpProg.run, fpDisable, fpEnable, Bool.or_eq_true] at h
    rcases h with h | h
    · have := run_le p _ hg k h
      simp only [Bool.and_eq_true] at this
      exact this.1
    · exact h

/-- **C48.** Leaving the scope of a `FloatingPointExceptionGuard` restores exactly the set of enabled exceptions of its
construction, for any set it disables and any code in the scope that only disables exceptions or opens further guarded
scopes; and inside the scope the given exceptions are disabled. -/
theorem C48_fpe_guard_restores (ex : FpEnv) (p : FpProg) (hp : FpProg.guarded p) (e : FpEnv) :
    (FpProg.guard ex p).run e = e ∧ ∀ k, ex k = true → (p.run (fpDisable ex e).1) k = false := by
  refine ⟨?_, ?_⟩
  · funext k
    simp only [FpProg.run, fpDisable, fpEnable]
    cases he : e k with
    | true => simp
    | false =>
      cases hr : p.run (fun k => e k && !ex k) k with
      | false => rfl
      | true =>
        have := FpProg.run_le p _ hp k hr
        simp [he] at this
  · intro k hk
    cases hr : p.run (fpDisable ex e).1 k with
    | false => rfl
    | true =>
      have := FpProg.run_le p _ hp k hr
      simp [fpDisable, hk] at this

example : FpProg.guarded (.seq (.guard (fun k => k == 2) .skip) (.disable (fun k => k == 3))) := ⟨trivial, trivial⟩

/-- Exceptions enabled inside the scope stay enabled after it. -/
theorem C48_enable_inside_leaks (ex : FpEnv) (k : Nat) (e : FpEnv) :
    (FpProg.guard ex (.enable (fun j => j == k))).run e k = true := by
  simp [FpProg.run, fpEnable]

end LvArray.Props

import Mathlib.Analysis.SpecialFunctions.Sqrt

/-!
# The functions of math.hpp for half precision

/repo/src/math.hpp: `max`, `min`, `abs`, `asin`, `acos` and `atan2` for `__half` and `__half2`, which LvArray implements itself.  The
other functions for these types and all functions for `float`, `double` and the integers are calls of the C++ or of the CUDA library
and are not modelled.

A value is a real number or a NaN; arithmetic is exact and the constants are not rounded, so that what is proved is how good the
approximations are, not what half precision makes of them.  Infinities and signed zeros are not modelled.
-/

namespace LvArray.math

open Classical

/-- A real number, or `none` for a NaN. -/
abbrev Value := Option ℝ

/-- The operations the functions are written with: `math::convert< T >` of a constant (/repo/src/math.hpp 112-172), the operators of
`T`, `sqrt`, `abs`, `min`, `max` and `lessThan`, which returns 1 or 0 as a `T`. -/
structure Ops (T : Type) where
  convert : ℝ → T
  add : T → T → T
  sub : T → T → T
  mul : T → T → T
  div : T → T → T
  sqrt : T → T
  abs : T → T
  min : T → T → T
  max : T → T → T
  lessThan : T → T → T

/-- `internal::asinImpl`: /repo/src/math.hpp 766-780. -/
noncomputable def asinImpl {T : Type} (o : Ops T) (x : T) : T :=
  let negate := o.lessThan x (o.convert 0)
  let absX := o.abs x
  let ret := o.add (o.mul (o.convert (-0.0187293)) absX) (o.convert 0.0742610)
  let ret := o.sub (o.mul ret absX) (o.convert 0.2121144)
  let ret := o.add (o.mul ret absX) (o.convert 1.5707288)
  let ret := o.sub (o.convert (3.14159265358979 * 0.5)) (o.mul ret (o.sqrt (o.sub (o.convert 1) absX)))
  let ret := o.sub ret (o.mul negate (o.add ret ret))
  let smallAngle := o.lessThan absX (o.convert 1.7e-1)
  o.add (o.mul smallAngle x) (o.mul (o.sub (o.convert 1) smallAngle) ret)

/-- `internal::acosImpl`: /repo/src/math.hpp 788-801. -/
noncomputable def acosImpl {T : Type} (o : Ops T) (x : T) : T :=
  let negate := o.lessThan x (o.convert 0)
  let absX := o.abs x
  let ret := o.add (o.mul (o.convert (-0.0187293)) absX) (o.convert 0.0742610)
  let ret := o.sub (o.mul ret absX) (o.convert 0.2121144)
  let ret := o.add (o.mul ret absX) (o.convert 1.5707288)
  let ret := o.mul ret (o.sqrt (o.sub (o.convert 1) absX))
  let ret := o.sub ret (o.mul negate (o.add ret ret))
  o.add (o.mul negate (o.convert 3.14159265358979)) ret

/-- `internal::atan2Impl`: /repo/src/math.hpp 810-835. -/
noncomputable def atan2Impl {T : Type} (o : Ops T) (y x : T) : T :=
  let absX := o.abs x
  let absY := o.abs y
  let ratio := o.div (o.min absX absY) (o.max absX absY)
  let ratio2 := o.mul ratio ratio
  let ret := o.add (o.mul (o.convert (-0.013480470)) ratio2) (o.convert 0.057477314)
  let ret := o.sub (o.mul ret ratio2) (o.convert 0.121239071)
  let ret := o.add (o.mul ret ratio2) (o.convert 0.195635925)
  let ret := o.sub (o.mul ret ratio2) (o.convert 0.332994597)
  let ret := o.add (o.mul ret ratio2) (o.convert 0.999995630)
  let ret := o.mul ret ratio
  let ret := o.add (o.mul (o.lessThan absX absY) (o.sub (o.sub (o.convert 1.570796327) ret) ret)) ret
  let ret := o.add (o.mul (o.lessThan x (o.convert 0)) (o.sub (o.sub (o.convert 3.141592654) ret) ret)) ret
  o.sub ret (o.mul (o.lessThan y (o.convert 0)) (o.add ret ret))

/-! ## One value -/

namespace Value

/-- An operator: a NaN if an operand is one. -/
def lift (f : ℝ → ℝ → ℝ) : Value → Value → Value
  | some x, some y => some (f x y)
  | _, _ => none

/-- Division; 0/0 is a NaN.  (Other divisions by 0 give an infinity, which is not modelled; the code does none.) -/
noncomputable def div : Value → Value → Value
  | some x, some y => if y = 0 then none else some (x / y)
  | _, _ => none

/-- The square root: of a negative number it is a NaN. -/
noncomputable def sqrt : Value → Value
  | some x => if x < 0 then none else some (Real.sqrt x)
  | none => none

/-- `x < y`, and the other comparisons with `r`: false if an operand is a NaN. -/
def holds (r : ℝ → ℝ → Prop) : Value → Value → Prop
  | some x, some y => r x y
  | _, _ => False

/-- The value of a comparison, 1 or 0: `__hlt` converted to `__half`, and each half of `__hlt2`, `__hle2` and `__hge2`. -/
noncomputable def test (r : ℝ → ℝ → Prop) (x y : Value) : Value := some (if holds r x y then 1 else 0)

/-- `-x`. -/
def neg (x : Value) : Value := x.map (- ·)

/-- The intrinsics `__hmax` and `__hmin`: if an operand is a NaN the other one is returned. -/
noncomputable def pick (r : ℝ → ℝ → Prop) : Value → Value → Value
  | some x, some y => if r x y then some x else some y
  | some x, none => some x
  | none, y => y

end Value

open Value

/-- `max( __half, __half )`: /repo/src/math.hpp 323-331. -/
noncomputable def halfMax (intrinsics : Bool) (a b : Value) : Value :=
  if intrinsics then pick (· > ·) a b else if holds (· > ·) a b then a else b

/-- `min( __half, __half )`: /repo/src/math.hpp 370-378. -/
noncomputable def halfMin (intrinsics : Bool) (a b : Value) : Value :=
  if intrinsics then pick (· < ·) a b else if holds (· < ·) a b then a else b

/-- `abs( __half )`: /repo/src/math.hpp 414-422. -/
noncomputable def halfAbs (intrinsics : Bool) (x : Value) : Value :=
  if intrinsics then x.map (|·|) else if holds (· > ·) x (some 0) then x else neg x

/-- The operations of `__half`.  `intrinsics` is true if those of new versions of CUDA are used. -/
noncomputable def half (intrinsics : Bool) : Ops Value where
  convert := some
  add := lift (· + ·)
  sub := lift (· - ·)
  mul := lift (· * ·)
  div := Value.div
  sqrt := Value.sqrt
  abs := halfAbs intrinsics
  min := halfMin intrinsics
  max := halfMax intrinsics
  lessThan := test (· < ·)

/-! ## Two values -/

/-- An operation on both halves of a `__half2`. -/
def both (f : Value → Value → Value) (a b : Value × Value) : Value × Value := (f a.1 b.1, f a.2 b.2)

/-- `max( __half2, __half2 )`: /repo/src/math.hpp 334-344. -/
noncomputable def half2Max (intrinsics : Bool) (a b : Value × Value) : Value × Value :=
  if intrinsics then both (pick (· > ·)) a b
  else
    let aFactor := both (test (· ≥ ·)) a b
    let bFactor := both (lift (· - ·)) (some 1, some 1) aFactor
    both (lift (· + ·)) (both (lift (· * ·)) a aFactor) (both (lift (· * ·)) bFactor b)

/-- `min( __half2, __half2 )`: /repo/src/math.hpp 381-391. -/
noncomputable def half2Min (intrinsics : Bool) (a b : Value × Value) : Value × Value :=
  if intrinsics then both (pick (· < ·)) a b
  else
    let aFactor := both (test (· ≤ ·)) a b
    let bFactor := both (lift (· - ·)) (some 1, some 1) aFactor
    both (lift (· + ·)) (both (lift (· * ·)) a aFactor) (both (lift (· * ·)) bFactor b)

/-- `abs( __half2 )`: /repo/src/math.hpp 425-433. -/
noncomputable def half2Abs (intrinsics : Bool) (x : Value × Value) : Value × Value :=
  if intrinsics then (x.1.map (|·|), x.2.map (|·|))
  else both (lift (· - ·)) x (both (lift (· * ·)) (both (test (· ≤ ·)) x (some 0, some 0)) (both (lift (· + ·)) x x))

/-- The operations of `__half2`. -/
noncomputable def half2 (intrinsics : Bool) : Ops (Value × Value) where
  convert := fun x => (some x, some x)
  add := both (lift (· + ·))
  sub := both (lift (· - ·))
  mul := both (lift (· * ·))
  div := both Value.div
  sqrt := fun x => (Value.sqrt x.1, Value.sqrt x.2)
  abs := half2Abs intrinsics
  min := half2Min intrinsics
  max := half2Max intrinsics
  lessThan := both (test (· < ·))

end LvArray.math

import Verif.MathApprox
import Verif.BinaryFormat

/-!
# The functions of math.hpp for half precision, with rounding

The same functions as in `Verif/MathApprox.lean` with the arithmetic of `__half`: constants are rounded when they are converted, and the
result of each operation is rounded to the nearest number of the format, ties to even.  That the compiler may contract a product and a
sum to one rounding is not modelled, nor is overflow: for arguments of which the functions are defined no result is larger than 8.
-/

namespace LvArray

/-- `__half`: IEEE 754 binary16, rounding to nearest. -/
noncomputable def Format.half : Format where
  p := 11
  emin := -14
  emax := 15
  rnd := Format.tiesToEven
  h := 1 / 2
  p_pos := by norm_num
  emin_le := by norm_num
  rnd_close := Format.tiesToEven_close
  rnd_exact := Format.tiesToEven_exact
  h_le := by norm_num

namespace math

open Value

/-- The operations of `__half` with rounding: `convert` /repo/src/math.hpp 112-115, `sqrt` 485-487; comparisons, `abs`, `min` and `max`
are exact. -/
noncomputable def roundedHalf (intrinsics : Bool) : Ops Value where
  convert := fun x => some (Format.half.nearest x)
  add := lift fun x y => Format.half.nearest (x + y)
  sub := lift fun x y => Format.half.nearest (x - y)
  mul := lift fun x y => Format.half.nearest (x * y)
  div := fun x y => (Value.div x y).map Format.half.nearest
  sqrt := fun x => (Value.sqrt x).map Format.half.nearest
  abs := halfAbs intrinsics
  min := halfMin intrinsics
  max := halfMax intrinsics
  lessThan := test (· < ·)

end math

end LvArray

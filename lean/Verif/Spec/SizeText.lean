import Verif.Spec.Printed

/-!
# Amounts of memory in words

An amount is a number with one decimal and a unit.  Nothing here mentions how LvArray computes it.
-/

namespace LvArray.Spec

/-- The unit an amount is given in, as a power of two: gigabytes from one gigabyte on, megabytes from one megabyte on, and kilobytes
below that. -/
def unitOf (bytes : Nat) : Nat := if 2 ^ 30 ≤ bytes then 30 else if 2 ^ 20 ≤ bytes then 20 else 10

/-- The abbreviation of a unit. -/
def unitName (unit : Nat) : List Char := if unit = 30 then "GB".toList else if unit = 20 then "MB".toList else "KB".toList

/-- An amount of so many tenths of a unit: `12.3 MB`. -/
def amount (tenths unit : Nat) : List Char :=
  decimal (tenths / 10) ++ ".".toList ++ decimal (tenths % 10) ++ " ".toList ++ unitName unit

/-- The number of tenths of a unit that is nearest to a number of bytes (or one of the two nearest). -/
def NearestTenths (bytes tenths unit : Nat) : Prop :=
  ∀ other : Nat, ((10 * bytes : Int) - tenths * 2 ^ unit).natAbs ≤ ((10 * bytes : Int) - other * 2 ^ unit).natAbs

/-- The largest number of bytes whose amount has at most four digits before the decimal point. -/
def largestShown : Nat := 10737364552908

end LvArray.Spec

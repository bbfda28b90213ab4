import Verif.Mem
import Verif.Spec.SizeText

/-!
# The text of an amount of memory and the message about a move

`system::calculateSize` (/repo/src/system.cpp 406-431) and the callback that `setName` installs (/repo/src/ChaiBuffer.hpp 443-458).
-/

namespace LvArray.system

open Spec

/-- `n / d` rounded to the nearest integer, the even one of two: what a conversion to floating point does with the significand (IEEE
754, default rounding mode), and what the C library does with the last decimal that `%.1f` prints. -/
def nearestEven (n d : Nat) : Nat :=
  if 2 * (n % d) < d then n / d
  else if d < 2 * (n % d) then n / d + 1
  else if n / d % 2 = 0 then n / d else n / d + 1

/-- `double( bytes )`: 53 significant bits.  The result of the conversion of an integer is an integer. -/
def toDouble (n : Nat) : Nat := nearestEven n (2 ^ (n.log2 - 52)) * 2 ^ (n.log2 - 52)

/-- `std::snprintf( result, room, "%.1f %s", d / 2^shift, suffix )` and the text that is then in `result`: at most `room - 1`
characters and a terminating zero (C standard).  Dividing a floating point number of this size by a power of two is exact. -/
def printUnits (room d shift : Nat) (suffix : List Char) : List Char :=
  let tenths := nearestEven (10 * d) (2 ^ shift)
  (decimal (tenths / 10) ++ '.' :: decimal (tenths % 10) ++ ' ' :: suffix).take (room - 1)

/-- `calculateSize( bytes )`: /repo/src/system.cpp 406-431. -/
def calculateSize (bytes : Nat) : List Char :=
  if bytes >>> 30 ≠ 0 then printUnits 10 (toDouble bytes) 30 "GB".toList
  else if bytes >>> 20 ≠ 0 then printUnits 10 (toDouble bytes) 20 "MB".toList
  else printUnits 10 (toDouble bytes) 10 "KB".toList

/-- `std::string( 9 - size.size(), ' ' ) + size`: /repo/src/ChaiBuffer.hpp 452.  The subtraction is of unsigned integers; if it wraps
the constructor throws. -/
def paddedSize (bytes : Nat) : R (List Char) :=
  if 9 < (calculateSize bytes).length then .error .abort
  else .ok (List.replicate (9 - (calculateSize bytes).length) ' ' ++ calculateSize bytes)

/-- What `chai` tells the callback about: /repo/src/ChaiBuffer.hpp 447. -/
inductive Action where
  | alloc | free | move
  deriving DecidableEq

/-- The callback: what it writes to standard output, /repo/src/ChaiBuffer.hpp 446-456, /repo/src/Macros.hpp 77. -/
def moveCallback (typeString name : List Char) (size : Nat) (act : Action) (host : Bool) : R (List Char) :=
  if act = .move then do
    let padded ← paddedSize size
    let spaceStr := if host then "HOST  ".toList else "DEVICE".toList
    .ok ("Moved ".toList ++ padded ++ " to the ".toList ++ spaceStr ++ ": ".toList ++ typeString ++ " ".toList ++ name ++ "\n".toList)
  else .ok []

end LvArray.system

import Verif.Mem
import Mathlib.Order.Defs.LinearOrder
/-!
# Integer conversion, error macros, signal handlers, floating point exceptions

/repo/src/limits.hpp, /repo/src/Macros.hpp, /repo/src/system.cpp and /repo/src/system.hpp.
-/

namespace LvArray

/-! ## Integer types -/

/-- A C++ integer type: its width in bits and whether it is signed (two's complement). -/
structure IntTy where
  bits : Nat
  signed : Bool
  deriving DecidableEq, Repr

namespace IntTy

/-- `NumericLimits< T >::min`: /repo/src/limits.hpp 35-38. -/
def min (t : IntTy) : Int := if t.signed then -(2 : Int) ^ (t.bits - 1) else 0

/-- `NumericLimits< T >::max`: /repo/src/limits.hpp 41. -/
def max (t : IntTy) : Int := if t.signed then (2 : Int) ^ (t.bits - 1) - 1 else (2 : Int) ^ t.bits - 1

/-- `static_cast< T >( x )`: reduction modulo `2 ^ bits` (the C++ rule; for signed targets the rule every supported
compiler implements). -/
def cast (t : IntTy) (x : Int) : Int :=
  let r := x % (2 : Int) ^ t.bits
  if t.signed ∧ (2 : Int) ^ (t.bits - 1) ≤ r then r - (2 : Int) ^ t.bits else r

/-- Integral promotion of an operand: everything narrower than `int` (32 bits) becomes `int`. -/
def promote (t : IntTy) : IntTy := if t.bits < 32 then { bits := 32, signed := true } else t

/-- The common type of the usual arithmetic conversions. -/
def common (a b : IntTy) : IntTy :=
  let a := a.promote
  let b := b.promote
  if a.signed = b.signed then (if a.bits < b.bits then b else a)
  else
    let s := if a.signed then a else b
    let u := if a.signed then b else a
    if s.bits ≤ u.bits then u else s

/-- The built-in `x > y` for `x` of type `a` and `y` of type `b`. -/
def gt (a b : IntTy) (x y : Int) : Bool := decide ((common a b).cast y < (common a b).cast x)

/-- The built-in `x < y`. -/
def lt (a b : IntTy) (x y : Int) : Bool := decide ((common a b).cast x < (common a b).cast y)

/-- `sameSignedness`: /repo/src/limits.hpp 113-115. -/
def sameSignedness (a b : IntTy) : Bool := (a.signed && b.signed) || (!a.signed && !b.signed)

/-- `canEasilyConvert`: /repo/src/limits.hpp 122-124 (`sizeof` compared through the width). -/
def canEasilyConvert (input output : IntTy) : Bool :=
  decide (input.bits < output.bits) || (decide (input.bits = output.bits) && sameSignedness input output)

/-- `make_signed_t< T >` and `make_unsigned_t< T >`. -/
def makeSigned (t : IntTy) : IntTy := { t with signed := true }
def makeUnsigned (t : IntTy) : IntTy := { t with signed := false }

/-- `integerConversion< OUTPUT >( input )`: /repo/src/limits.hpp 134-145 (easy), 153-167 (unsigned input), 175-191 (signed
input). -/
def integerConversion (input output : IntTy) (x : Int) : R Int :=
  if canEasilyConvert input output then .ok (output.cast x)
  else if !input.signed then do
    errorIf (gt input output x output.max)
    .ok (output.cast x)
  else do
    errorIf (lt input output.makeSigned x output.min)
    let conditionallyUnsigned := if !output.signed then input.makeUnsigned else input
    errorIf (gt conditionallyUnsigned output (conditionallyUnsigned.cast x) output.max)
    .ok (output.cast x)

end IntTy

/-! ## Error macros -/

/-- The relations the macros are named after. -/
inductive Rel where
  | eq | ne | gt | ge | lt | le
  deriving DecidableEq, Repr

/-- The families of macros: `ERROR_IF_x`, `ERROR_IF_x_MSG`, `THROW_IF_x`, `THROW_IF_x_MSG`, and the debug-only `ASSERT_x`,
`ASSERT_x_MSG` (which exist for EQ, NE, GT and GE only). -/
inductive MacroForm where
  | errorIf | errorIfMsg | throwIf | throwIfMsg | assert | assertMsg
  deriving DecidableEq, Repr

/-- `lhs OP rhs`, where OP is the operator token a macro passes on (operands without unordered values). -/
def opHolds {T : Type} [LinearOrder T] (op : Rel) (a b : T) : Bool :=
  match op with
  | .eq => decide (a = b)
  | .ne => decide (a ≠ b)
  | .gt => decide (b < a)
  | .ge => decide (b ≤ a)
  | .lt => decide (a < b)
  | .le => decide (a ≤ b)

/-- The operator token in the expansion of each macro: /repo/src/Macros.hpp 264-289 (EQ), 297-321 (NE), 329-353 (GT),
361-385 (GE), 393-417 (LT), 425-457 (LE) and 478-530 (ASSERT).  Lines 449 and 457 expand the LE macros without message to
the GE macros. -/
def macroOp (form : MacroForm) : Rel → Rel
  | .eq => .eq
  | .ne => .ne
  | .gt => .gt
  | .ge => .ge
  | .lt => .lt
  | .le =>
    match form with
    | .errorIf => .ge
    | .throwIf => .ge
    | _ => .le

/-- Does the macro `form_rel( a, b )` report an error?  /repo/src/Macros.hpp 122-136 and 168-181: exactly when `lhs OP rhs`;
156-160 and 466-470: ASSERT reports when `lhs OP rhs` is false, and only if `NDEBUG` is not defined. -/
def macroFails {T : Type} [LinearOrder T] (c : Cfg) (form : MacroForm) (rel : Rel) (a b : T) : Bool :=
  match form with
  | .assert => c.debug && !opHolds (macroOp form rel) a b
  | .assertMsg => c.debug && !opHolds (macroOp form rel) a b
  | _ => opHolds (macroOp form rel) a b

/-! ## Signal handlers -/

/-- A signal disposition. -/
inductive Handler where
  /-- `SIG_DFL`, which is also the null pointer -/
  | dfl
  | ign
  /-- `SIG_ERR` -/
  | err
  | user (n : Nat)
  deriving DecidableEq, Repr

/-- The process: current dispositions and LvArray's map `initialHandler` (/repo/src/system.cpp, `none` = no entry). -/
structure SigWorld where
  current : Nat → Handler
  saved : Nat → Option Handler

/-- Signals whose disposition cannot be changed (SIGKILL = 9, SIGSTOP = 19). -/
def uncatchable (s : Nat) : Bool := s == 9 || s == 19

/-- POSIX `signal( s, h )`: returns the previous disposition; fails with SIG_ERR for uncatchable signals and for the
handler SIG_ERR. -/
def sysSignal (w : SigWorld) (s : Nat) (h : Handler) : SigWorld × Handler :=
  if uncatchable s || h == .err then (w, .err)
  else ({ w with current := fun k => if k = s then h else w.current k }, w.current s)

/-- `initialHandler[ s ] = signal( s, handler )`. -/
def setOne (h : Handler) (w : SigWorld) (s : Nat) : SigWorld :=
  let r := sysSignal w s h
  { r.1 with saved := fun k => if k = s then some r.2 else r.1.saved k }

/-- `setSignalHandling( handler )`: /repo/src/system.cpp 491-514, for the list of signals of the platform. -/
def setSignalHandling (managed : List Nat) (h : Handler) (w : SigWorld) : SigWorld := managed.foldl (setOne h) w

/-- The signals of lines 493-512 on Linux (the `_POSIX_C_SOURCE` branch): SIGHUP, SIGINT, SIGQUIT, SIGILL, SIGTRAP, SIGABRT,
SIGPOLL, SIGFPE, SIGKILL, SIGBUS, SIGSEGV, SIGSYS, SIGPIPE, SIGTERM. -/
def linuxSignals : List Nat := [1, 2, 3, 4, 5, 6, 29, 8, 9, 7, 11, 31, 13, 15]

/-- The same with the other branch (macOS numbers): SIGIOT is the same signal as SIGABRT (6). -/
def macSignals : List Nat := [1, 2, 3, 4, 5, 6, 6, 7, 8, 9, 10, 11, 12, 13, 15]

/-- `resetSignalHandling()`: /repo/src/system.cpp 517-523; the map is ordered by signal number, `keys` lists its keys. -/
def resetSignalHandling (keys : List Nat) (w : SigWorld) : SigWorld :=
  keys.foldl (fun w s => match w.saved s with
    | some h => (sysSignal w s h).1
    | none => w) w

/-! ## Floating point exception guard -/

/-- The set of enabled exceptions, one truth value per exception bit. -/
abbrev FpEnv := Nat → Bool

/-- `disableFloatingPointExceptions( ex )`: /repo/src/system.cpp 560-585 (glibc branch). Returns the new environment and the
previous one. -/
def fpDisable (ex : FpEnv) (env : FpEnv) : FpEnv × FpEnv := (fun k => env k && !ex k, env)

/-- `enableFloatingPointExceptions( ex )`: /repo/src/system.cpp 532-557 (glibc branch). -/
def fpEnable (ex : FpEnv) (env : FpEnv) : FpEnv × FpEnv := (fun k => env k || ex k, env)

/-- A program made of floating point environment changes and guarded scopes. -/
inductive FpProg where
  | skip
  | disable (ex : FpEnv)
  | enable (ex : FpEnv)
  | seq (p q : FpProg)
  /-- `{ FloatingPointExceptionGuard g( ex ); p }`: /repo/src/system.hpp 124-144 -/
  | guard (ex : FpEnv) (p : FpProg)

/-- Effect on the environment. -/
def FpProg.run : FpProg → FpEnv → FpEnv
  | .skip, e => e
  | .disable ex, e => (fpDisable ex e).1
  | .enable ex, e => (fpEnable ex e).1
  | .seq p q, e => q.run (p.run e)
  | .guard ex p, e =>
    let r := fpDisable ex e
    (fpEnable r.2 (p.run r.1)).1

end LvArray

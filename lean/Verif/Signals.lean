import Verif.IntConv
/-!
# Histories of signal handling, and error handling

/repo/src/system.cpp 432-523 and the host branch of `LVARRAY_ERROR_IF`, /repo/src/Macros.hpp 120-137.
-/

namespace LvArray

/-! ## Who changes the dispositions -/

/-- What can happen to the signal dispositions of the process: the two functions of LvArray, and `signal( s, h )` called by
anybody else. -/
inductive SigOp where
  | set (h : Handler)
  | reset
  | other (s : Nat) (h : Handler)
  deriving DecidableEq, Repr

/-- One call: `setSignalHandling` /repo/src/system.cpp 491-514, `resetSignalHandling` 517-523.  The map's keys are those of
`managed`; before the first `setSignalHandling` there is no entry and the reset does nothing. -/
def sigStep (managed : List Nat) (w : SigWorld) : SigOp → SigWorld
  | .set h => setSignalHandling managed h w
  | .reset => resetSignalHandling managed w
  | .other s h => (sysSignal w s h).1

/-- A history of calls. -/
def sigRun (managed : List Nat) (w : SigWorld) (ops : List SigOp) : SigWorld := ops.foldl (sigStep managed) w

/-! ## Errors and fatal signals -/

/-- What the function given to `setErrorHandler` does (a `std::function< void() >`; simplified to the actions that matter
here). -/
inductive ErrAct where
  /-- ends the process (`exit`, `MPI_Abort`, …) -/
  | exit
  /-- causes a signal: a floating point exception, `abort`, a segmentation fault, … -/
  | raise (s : Nat)
  /-- runs into an LvArray error itself -/
  | error
  deriving DecidableEq, Repr

/-- The process.  `traces` counts the entries into `stackTraceHandler( sig, true )`, `calls` the calls of the user's error handler.
`onError` is `s_errorHandler`, /repo/src/system.cpp 432-436 (`none` = null pointer; a null `std::function`, which
`callErrorHandler` treats in the same way, is `none` too). -/
structure Proc where
  sig : SigWorld
  onError : Option (List ErrAct)
  alive : Bool
  traces : Nat
  calls : Nat

/-- The handler `[]( int sig ){ stackTraceHandler( sig, true ); }`. -/
def tracer : Handler := .user 0

/-- SIGABRT. -/
def sigAbrt : Nat := 6

/-- Pieces of code. -/
inductive Task where
  /-- the kernel delivers a signal -/
  | deliver (s : Nat)
  /-- `callErrorHandler()` -/
  | callErrorHandler
  /-- `std::abort()` -/
  | abort
  /-- the rest of the user's error handler -/
  | acts (l : List ErrAct)

/-- `Ends managed t p q`: the piece of code `t`, started in the process `p`, comes to an end and leaves the process `q` (a
dead process, `q.alive = false`, executes nothing).  A piece of code that runs forever has no `q`.

`stackTraceHandler( sig, exit )`: /repo/src/system.cpp 463-488 (printing left out); `callErrorHandler` 452-460.
`std::abort` and signal delivery are the platform's: abort raises SIGABRT and never returns; the default action of every
managed signal is to end the process; handlers other than `stackTraceHandler( sig, true )` (among them
`stackTraceHandler( sig, false )`, which only prints) are taken to return without effect.  That a signal
is blocked while its handler runs is not modelled: a second fault then ends the process as the default action does. -/
inductive Ends (managed : List Nat) : Task → Proc → Proc → Prop
  | dead {t p} : p.alive = false → Ends managed t p p
  | deliverDefault {s p} : p.alive = true → p.sig.current s = .dfl → s ∈ managed →
      Ends managed (.deliver s) p { p with alive := false }
  | deliverUnmanaged {s p} : p.alive = true → p.sig.current s = .dfl → s ∉ managed → Ends managed (.deliver s) p p
  | deliverOther {s p} : p.alive = true → p.sig.current s ≠ .dfl → p.sig.current s ≠ tracer →
      Ends managed (.deliver s) p p
  | traceExit {s p q} : p.alive = true → p.sig.current s = tracer →
      Ends managed .callErrorHandler { p with traces := p.traces + 1, sig := setSignalHandling managed .dfl p.sig } q →
      Ends managed (.deliver s) p q
  | callNone {p q} : p.alive = true → p.onError = none → Ends managed .abort p q → Ends managed .callErrorHandler p q
  | callSome {p q l} : p.alive = true → p.onError = some l →
      Ends managed (.acts l) { p with calls := p.calls + 1 } q → Ends managed .callErrorHandler p q
  | abort {p q} : p.alive = true → Ends managed (.deliver sigAbrt) p q → Ends managed .abort p { q with alive := false }
  | actsNil {p} : p.alive = true → Ends managed (.acts []) p p
  | actsExit {p l} : p.alive = true → Ends managed (.acts (.exit :: l)) p { p with alive := false }
  | actsRaise {p q r s l} : p.alive = true → Ends managed (.deliver s) p q → Ends managed (.acts l) q r →
      Ends managed (.acts (.raise s :: l)) p r
  | actsError {p q r l} : p.alive = true → Ends managed .callErrorHandler p q → Ends managed (.acts l) q r →
      Ends managed (.acts (.error :: l)) p r

/-- What the program does, or what happens to it. -/
inductive ProcOp where
  | sig (o : SigOp)
  /-- `setErrorHandler( handler )` -/
  | setErrorHandler (l : Option (List ErrAct))
  /-- a check of LvArray fails -/
  | error
  /-- a signal arrives -/
  | signal (s : Nat)
  deriving DecidableEq, Repr

/-- One event of the process's life.  `setErrorHandler`: /repo/src/system.cpp 439-449, a null function is itself an error,
and is installed if the error handler returns.  `LVARRAY_ERROR_IF` with a true expression: /repo/src/Macros.hpp 120-137,
calls `callErrorHandler` and goes on. -/
inductive ProcStep (managed : List Nat) : Proc → ProcOp → Proc → Prop
  | dead {p o} : p.alive = false → ProcStep managed p o p
  | sig {p o} : p.alive = true → ProcStep managed p (.sig o) { p with sig := sigStep managed p.sig o }
  | setErrorHandler {p l} : p.alive = true → ProcStep managed p (.setErrorHandler (some l)) { p with onError := some l }
  | setErrorHandlerNull {p q} : p.alive = true → Ends managed .callErrorHandler p q →
      ProcStep managed p (.setErrorHandler none) { q with onError := none }
  | error {p q} : p.alive = true → Ends managed .callErrorHandler p q → ProcStep managed p .error q
  | signal {p q s} : p.alive = true → Ends managed (.deliver s) p q → ProcStep managed p (.signal s) q

/-- A whole history of the process. -/
inductive ProcRun (managed : List Nat) : Proc → List ProcOp → Proc → Prop
  | nil {p} : ProcRun managed p [] p
  | cons {p q r o rest} : ProcStep managed p o q → ProcRun managed q rest r → ProcRun managed p (o :: rest) r

end LvArray

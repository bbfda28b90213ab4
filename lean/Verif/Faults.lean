import Verif.Array1D
/-!
# Calls that end in an exception

The one-dimensional `Array` of `Array1D.lean` once more, now with the state in which a call leaves the array when it does
not return: because an element could not be constructed or assigned (its constructor or assignment operator throws), or
because the error handler installed with `LvArray::system::setErrorHandler` (/repo/src/system.cpp 440-441) throws instead of
ending the program.  Whoever called the member function catches the exception and goes on using the array.

Simplifications: moving an element and destroying it do not throw (the code calls no copy constructor as a replacement,
/repo/src/arrayManipulation.hpp 196-211), memory is never exhausted, trivial types do not throw.
-/

namespace LvArray

variable {T : Type}

/-- How a call can end other than by returning. -/
inductive Fault where
  /-- the constructor or assignment operator of an element threw -/
  | element
  /-- the error handler threw -/
  | handler
  | ub (u : UB)
  deriving DecidableEq, Repr

/-- The array, with `m_dims[ 0 ]` as it is stored, and how many element constructors and assignment operators that may throw
have been called so far. -/
structure Faulty (T : Type) where
  buf : Buf T
  dim : Int
  count : Nat

/-- A member function: it returns or ends with a fault, in either case in some state. -/
abbrev FProg (T : Type) := EStateM Fault (Faulty T)

namespace Faulty

/-- A default constructed array, /repo/src/Array.hpp 89-100, or a `StackArray`, /repo/src/Array.hpp 717-750. -/
def init (T : Type) (limit : Option Nat) : Faulty T := { buf := (Array1.init T limit).buf, dim := 0, count := 0 }

/-- Part of a function in which only checks, moves and destructors occur.  Where it fails it does so in a check, and every
check of the parts below precedes the first change. -/
def onBuf (f : Buf T → R (Buf T)) : FProg T Unit := fun s =>
  match f s.buf with
  | .ok b => .ok () { s with buf := b }
  | .error .abort => .error .handler s
  | .error (.ub u) => .error (.ub u) s

/-- `LVARRAY_ERROR_IF( ... )`, /repo/src/Macros.hpp 122-136, and the checks made of it. -/
def checking (f : Buf T → R Unit) : FProg T Unit := onBuf (fun b => f b >>= fun _ => .ok b)

/-- An element constructor or assignment operator that may throw.  `throws k` says whether the `k`-th of them does.  One that
throws has no effect. -/
def element (c : Cfg) (throws : Nat → Bool) (f : Buf T → R (Buf T)) : FProg T Unit := fun s =>
  if !c.trivial && throws s.count then .error .element { s with count := s.count + 1 }
  else onBuf f { s with count := s.count + 1 }

/-- `for( i = lo; i < lo + n; ++i )`. -/
def loop : Nat → Nat → (Nat → FProg T Unit) → FProg T Unit
  | 0, _, _ => pure ()
  | n + 1, lo, f => do
    f lo
    loop n (lo + 1) f

/-- `m_dims[ 0 ] = n`. -/
def setDim (n : Int) : FProg T Unit := fun s => .ok () { s with dim := n }

/-- `size()`.  Simplification: a negative size, which only a failed `resizeDims` leaves behind, is outside the model of all
other functions and reported as undefined behaviour. -/
def size : FProg T Nat := fun s => if s.dim < 0 then .error (.ub .outOfBounds) s else .ok s.dim.toNat s

/-- A value computed by checks alone. -/
def eval {α : Type} (r : R α) : FProg T α := fun s =>
  match r with
  | .ok x => .ok x s
  | .error .abort => .error .handler s
  | .error (.ub u) => .error (.ub u) s

/-- `emplace_back`: /repo/src/Array.hpp 493-499, /repo/src/bufferManipulation.hpp 297-303, /repo/src/arrayManipulation.hpp
421-429. -/
def emplaceBack (c : Cfg) (throws : Nat → Bool) (v : T) : FProg T Unit := do
  let n ← size
  checking (bufferManipulation.check c · n)
  onBuf (bufferManipulation.dynamicReserve c · n (n + 1))
  checking (arrayManipulation.assertNonNull c · 0)
  element c throws (·.construct c n v)
  setDim ((n + 1 : Nat) : Int)

/-- `emplace`: /repo/src/Array.hpp 509-515, /repo/src/bufferManipulation.hpp 315-324, /repo/src/arrayManipulation.hpp
474-487. -/
def emplace (c : Cfg) (throws : Nat → Bool) (pos : Int) (v : T) : FProg T Unit := do
  let n ← size
  let pos ← eval (posArg c pos)
  checking (bufferManipulation.checkInsert c · n pos)
  onBuf (bufferManipulation.dynamicReserve c · n (n + 1))
  checking (arrayManipulation.assertNonNull c · 0)
  checking (fun _ => arrayManipulation.checkInsertBounds c n pos)
  onBuf (arrayManipulation.shiftUp c · 0 n pos 1)
  element c throws (·.construct c pos v)
  setDim ((n + 1 : Nat) : Int)

/-- `insert`: /repo/src/Array.hpp 526-529, /repo/src/bufferManipulation.hpp 338-350, /repo/src/arrayManipulation.hpp
501-519. -/
def insert [Inhabited T] (c : Cfg) (throws : Nat → Bool) (pos : Int) (vs : List T) : FProg T Unit := do
  let n ← size
  let pos ← eval (posArg c pos)
  checking (bufferManipulation.checkInsert c · n pos)
  onBuf (bufferManipulation.dynamicReserve c · n (n + vs.length))
  checking (arrayManipulation.assertNonNull c · 0)
  checking (fun _ => arrayManipulation.checkInsertBounds c n pos)
  onBuf (arrayManipulation.shiftUp c · 0 n pos vs.length)
  loop vs.length pos (fun i => element c throws (·.construct c i (vs.getD (i - pos) default)))
  setDim ((n + vs.length : Nat) : Int)

/-- `pop_back`: /repo/src/Array.hpp 536-542. -/
def popBack (c : Cfg) : FProg T Unit := do
  let n ← size
  onBuf (bufferManipulation.popBack c · n)
  setDim ((n - 1 : Nat) : Int)

/-- `erase`: /repo/src/Array.hpp 550-556. -/
def erase (c : Cfg) (pos : Int) : FProg T Unit := do
  let n ← size
  let pos ← eval (posArg c pos)
  onBuf (bufferManipulation.erase c · n pos)
  setDim ((n - 1 : Nat) : Int)

/-- `bufferManipulation::resize`: /repo/src/bufferManipulation.hpp 272-286, /repo/src/arrayManipulation.hpp 281-309. -/
def resizeBuffer (c : Cfg) (throws : Nat → Bool) (old new : Nat) (v : T) : FProg T Unit := do
  checking (bufferManipulation.check c · old)
  onBuf (bufferManipulation.reserve c · old new)
  onBuf (arrayManipulation.destroy c · new (old - new))
  loop (new - old) old (fun i => element c throws (·.construct c i v))

/-- `resize( INDEX_TYPE )`, `resizeDefault`: /repo/src/Array.hpp 423-435 and 592-606.  The dimension is set before the buffer
is changed. -/
def resizeDefault (c : Cfg) (throws : Nat → Bool) (n : Int) (v : T) : FProg T Unit := do
  eval (errorIf (decide (n < 0)))
  let old ← size
  setDim n
  resizeBuffer c throws old n.toNat v

/-- `resize( dims ... )` with one dimension, /repo/src/Array.hpp 323-343: the overload that a literal selects when it is not of
type `INDEX_TYPE`.  The dimension is set before it is checked. -/
def resizeDims (c : Cfg) (throws : Nat → Bool) (n : Int) (v : T) : FProg T Unit := do
  let old ← size
  setDim n
  eval (errorIf (decide (n < 0)))
  resizeBuffer c throws old n.toNat v

/-- `reserve`: /repo/src/Array.hpp 475-476. -/
def reserve (c : Cfg) (n : Int) : FProg T Unit := do
  let old ← size
  onBuf (bufferManipulation.reserve c · old n.toNat)

/-- `clear`: /repo/src/Array.hpp 442-449. -/
def clear [Inhabited T] (c : Cfg) (throws : Nat → Bool) : FProg T Unit := do
  let old ← size
  resizeBuffer c throws old 0 default
  setDim 0

/-- `a[ i ] = v`: /repo/src/ArrayView.hpp 541-546. -/
def set (c : Cfg) (throws : Nat → Bool) (i : Int) (v : T) : FProg T Unit := do
  let n ← size
  let s ← EStateM.get
  let i ← eval (({ buf := s.buf, size := n } : Array1 T).checkIndex c i)
  element c throws (·.write c i v)

/-- Reading `a[ i ]`: /repo/src/ArrayView.hpp 541-546. -/
def get (c : Cfg) (i : Int) : FProg T T := do
  let n ← size
  let s ← EStateM.get
  eval (({ buf := s.buf, size := n } : Array1 T).get c i)

/-- Copy assignment: /repo/src/Array.hpp 173-185, /repo/src/bufferManipulation.hpp 393-413. -/
def copyAssign [Inhabited T] (c : Cfg) (throws : Nat → Bool) (rhs : Array1 T) : FProg T Unit := do
  let n ← size
  checking (bufferManipulation.check c · n)
  checking (fun _ => bufferManipulation.check c rhs.buf rhs.size)
  resizeBuffer c throws n rhs.size default
  loop rhs.size 0 (fun i => element c throws (fun b => rhs.buf.read i >>= fun x => b.write c i x))
  setDim (rhs.size : Int)

/-- The destructor: /repo/src/Array.hpp 164-165. -/
def dtor (c : Cfg) : FProg T Unit := do
  let n ← size
  onBuf (bufferManipulation.free c · n)

/-- One call. -/
def call [Inhabited T] (c : Cfg) (throws : Nat → Bool) : VecOp T → FProg T Unit
  | .emplaceBack v => emplaceBack c throws v
  | .emplace pos v => emplace c throws pos v
  | .insert pos vs => insert c throws pos vs
  | .popBack => popBack c
  | .erase pos => erase c pos
  | .resize n => resizeDefault c throws n default
  | .resizeDefault n v => resizeDefault c throws n v
  | .reserve n => reserve c n
  | .clear => clear c throws
  | .set i v => set c throws i v

/-- How a call ended, as the caller sees it. -/
inductive Outcome where
  | returned
  | threw
  | refused
  | undefined (u : UB)
  deriving DecidableEq, Repr

/-- A history in which the caller catches every exception and goes on. -/
def run [Inhabited T] (c : Cfg) (throws : Nat → Bool) : Faulty T → List (VecOp T) → List Outcome × Faulty T
  | s, [] => ([], s)
  | s, op :: ops =>
    match call c throws op s with
    | .ok _ s' => (.returned :: (run c throws s' ops).1, (run c throws s' ops).2)
    | .error .element s' => (.threw :: (run c throws s' ops).1, (run c throws s' ops).2)
    | .error .handler s' => (.refused :: (run c throws s' ops).1, (run c throws s' ops).2)
    | .error (.ub u) s' => ([.undefined u], s')

end Faulty

end LvArray

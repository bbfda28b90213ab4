import Verif.ArrayND

/-!
# Pointers to the values of an `Array`: `begin()`, `end()`, `front()`, `back()`

A pointer is the position it points at, relative to `data()`.
-/

namespace LvArray.ArrayN

variable {T : Type}

/-- `begin()`: /repo/src/ArrayView.hpp 571-573. -/
def first (_ : ArrayN T) : Int := 0

/-- `end()`: /repo/src/ArrayView.hpp 578-580. -/
def last (a : ArrayN T) : Int := a.first + a.size

/-- Reading through a pointer to position `k` (`*ptr`).  A position before `data()` is not in the buffer. -/
def deref (a : ArrayN T) (k : Int) : R T := if k < 0 then .error (.ub .outOfBounds) else a.buf.read k.toNat

/-- Assigning through a pointer to position `k` (`*ptr = v`). -/
def assign (c : Cfg) (a : ArrayN T) (k : Int) (v : T) : R (ArrayN T) :=
  if k < 0 then .error (.ub .outOfBounds) else do
    let b ← a.buf.write c k.toNat v
    .ok { a with buf := b }

/-- Reading `a.front()`: /repo/src/ArrayView.hpp 585-586. -/
def front (a : ArrayN T) : R T := a.deref 0

/-- Reading `a.back()`: /repo/src/ArrayView.hpp 591-592.  `size()` is signed, so that of an empty array minus one is -1. -/
def back (a : ArrayN T) : R T := a.deref ((a.size : Int) - 1)

/-- What `for( T const & x : a ) { xs.push_back( x ); }` collects: `begin()`, `++`, `!= end()`,
/repo/src/ArrayView.hpp 571-580. -/
def iterate (a : ArrayN T) : R (List T) :=
  forUp (a.last - a.first).toNat 0 (fun k xs => do
    let x ← a.deref (a.first + k)
    .ok (xs ++ [x])) []

/-- `for( T & x : a ) { x = f( x ); }`: /repo/src/ArrayView.hpp 571-580. -/
def forEach (c : Cfg) (a : ArrayN T) (f : T → T) : R (ArrayN T) :=
  forUp (a.last - a.first).toNat 0 (fun k b => do
    let x ← b.deref (a.first + k)
    b.assign c (a.first + k) (f x)) a

end LvArray.ArrayN

import Verif.AoA
import Verif.Array1D
import Verif.Spec.Arguments

/-!
# Arguments that are used up

`std::forward` in a loop, and iterators of single pass ranges.
-/

namespace LvArray

variable {T A : Type}

/-! ## Values -/

/-- `for i < n: new ( ptr + p + i ) T( std::forward< ARGS >( args )... )`: /repo/src/arrayManipulation.hpp 302-308.  The constructor
may take the contents of `args`. -/
def arrayManipulation.constructMaking (c : Cfg) (make : A → T × A) (b : Buf T) (p n : Nat) (args : A) : R (Buf T × A) :=
  forUp n p (fun i s => do
    let b ← s.1.construct c i (make s.2).1
    .ok (b, (make s.2).2)) (b, args)

/-- `resize`: /repo/src/arrayManipulation.hpp 281-309. -/
def arrayManipulation.resizeMaking (c : Cfg) (make : A → T × A) (b : Buf T) (p size newSize : Nat) (args : A) : R (Buf T × A) := do
  let b ← arrayManipulation.destroy c b (p + newSize) (size - newSize)
  arrayManipulation.constructMaking c make b (p + size) (newSize - size) args

/-- `ArrayOfArrays::resizeArray( i, newSize, args ... )`: /repo/src/ArrayOfArrays.hpp 410-425. -/
def AoA.resizeArrayMaking (c : Cfg) (make : A → T × A) (a : AoA T) (i newSize : Nat) (args : A) : R (AoA T × A) := do
  a.shape.checkBounds c i
  let cap ← a.shape.capacityOfArray c i
  let a ← growIf c (decide (cap < newSize)) a i newSize
  let prevSize ← a.shape.sizeOfArray c i
  a.shape.checkBounds c i
  let p ← a.ptr i
  let (values, args) ← arrayManipulation.resizeMaking c make a.values p prevSize newSize args
  let shape ← a.shape.setSize c i newSize
  .ok ({ shape := shape, values := values }, args)

/-! ## Ranges -/

namespace Source

/-- An iterator at position `it` may be used when the furthest copy is at position `front`. -/
def usable (s : Source T) (front it : Nat) : Bool := s.category != .input || it == front

/-- `while( first != last ) { ++first; ++n; }` for `first` at `it`; the number and the furthest position:
/repo/src/arrayManipulation.hpp 100-113. -/
def count (s : Source T) (front it n : Nat) : R (Nat × Nat) :=
  if s.usable front it then
    if it < s.items.length then s.count (max front (it + 1)) (it + 1) (n + 1) else .ok (n, front)
  else .error (.ub .overrun)
termination_by s.items.length - it

/-- `iterDistance( first, last )`: /repo/src/arrayManipulation.hpp 100-140. -/
def iterDistance (s : Source T) (front : Nat) : R (Nat × Nat) :=
  match s.category with
  | .random => .ok (s.items.length, front)
  | _ => s.count front 0 0

/-- `while( first != last ) { new ( ptr + i ) T( *first ); ++first; ++i; }`: /repo/src/arrayManipulation.hpp 452-458.  The number of
values is returned. -/
def append (c : Cfg) (s : Source T) (front it : Nat) (b : Buf T) (q i : Nat) : R (Buf T × Nat) :=
  if s.usable front it then
    if h : it < s.items.length then do
      let b ← b.construct c (q + i) s.items[it]
      s.append c (max front (it + 1)) (it + 1) b q (i + 1)
    else .ok (b, i)
  else .error (.ub .overrun)
termination_by s.items.length - it

/-- `for i < n { new ( ptr + i ) T( *first ); ++first; }`: /repo/src/arrayManipulation.hpp 514-518. -/
def insert (c : Cfg) (s : Source T) (n front it : Nat) (b : Buf T) (q i : Nat) : R (Buf T) :=
  match n with
  | 0 => .ok b
  | n + 1 =>
    if s.usable front it then
      if h : it < s.items.length then do
        let b ← b.construct c (q + i) s.items[it]
        s.insert c n (max front (it + 1)) (it + 1) b q (i + 1)
      else .error (.ub .overrun)
    else .error (.ub .overrun)

end Source

/-- `insert( pos, first, last )` of a one-dimensional array: /repo/src/Array.hpp 526-529, /repo/src/bufferManipulation.hpp 338-350,
/repo/src/arrayManipulation.hpp 501-519. -/
def Array1.insertFrom (c : Cfg) (a : Array1 T) (pos : Int) (s : Source T) : R (Array1 T) := do
  let pos ← posArg c pos
  bufferManipulation.checkInsert c a.buf a.size pos
  let (n, front) ← s.iterDistance 0
  let b ← bufferManipulation.dynamicReserve c a.buf a.size (a.size + n)
  arrayManipulation.assertNonNull c b 0
  arrayManipulation.checkInsertBounds c a.size pos
  let b ← arrayManipulation.shiftUp c b 0 a.size pos n
  let b ← s.insert c n front 0 b pos 0
  .ok { buf := b, size := a.size + n }

namespace AoA

/-- `ArrayOfArraysView::appendToArray`: /repo/src/ArrayOfArraysView.hpp 482-492. -/
def viewAppendFrom (c : Cfg) (a : AoA T) (i : Nat) (s : Source T) (front : Nat) : R (AoA T) := do
  a.shape.checkBounds c i
  let p ← a.ptr i
  let m ← a.shape.sizeOfArray c i
  let (values, n) ← s.append c front 0 a.values (p + m) 0
  a.shape.capacityCheck c i n
  let shape ← a.shape.setSize c i (m + n)
  .ok { shape := shape, values := values }

/-- `ArrayOfArraysView::insertIntoArray`: /repo/src/ArrayOfArraysView.hpp 525-539. -/
def viewInsertFrom (c : Cfg) (a : AoA T) (i j : Nat) (s : Source T) (front : Nat) : R (AoA T) := do
  a.shape.checkInsertBounds2 c i j
  let (n, front) ← s.iterDistance front
  a.shape.capacityCheck c i n
  let p ← a.ptr i
  let m ← a.shape.sizeOfArray c i
  arrayManipulation.assertNonNull c a.values p
  arrayManipulation.checkInsertBounds c m j
  let b ← arrayManipulation.shiftUp c a.values p m j n
  let values ← s.insert c n front 0 b (p + j) 0
  let shape ← a.shape.setSize c i (m + n)
  .ok { shape := shape, values := values }

/-- `appendToArray`: /repo/src/ArrayOfArrays.hpp 361-367. -/
def appendFrom (c : Cfg) (a : AoA T) (i : Nat) (s : Source T) : R (AoA T) := do
  let (n, front) ← s.iterDistance 0
  let a ← dynamicallyGrowArray c a i n
  viewAppendFrom c a i s front

/-- `insertIntoArray`: /repo/src/ArrayOfArrays.hpp 393-399. -/
def insertFrom (c : Cfg) (a : AoA T) (i j : Nat) (s : Source T) : R (AoA T) := do
  let (n, front) ← s.iterDistance 0
  let a ← dynamicallyGrowArray c a i n
  viewInsertFrom c a i j s front

/-- `appendArray( first, last )`: /repo/src/ArrayOfArrays.hpp 286-296. -/
def appendArrayFrom (c : Cfg) (a : AoA T) (s : Source T) : R (AoA T) := do
  let shape ← a.shape.appendRow c
  appendFrom c { a with shape := shape } (shape.numArrays - 1) s

/-- `insertArray`: /repo/src/ArrayOfArrays.hpp 305-318. -/
def insertArrayFrom (c : Cfg) (a : AoA T) (i : Nat) (s : Source T) : R (AoA T) := do
  let shape ← a.shape.insertRow c i
  appendFrom c { a with shape := shape } i s

end AoA

end LvArray

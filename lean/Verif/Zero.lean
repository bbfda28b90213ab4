import Verif.MatrixViews
import Verif.Spec.Zero

/-!
# `CRSMatrixView::zero`

The number of bytes is computed in `std::size_t`, kept in a variable of type `INDEX_TYPE`, and converted to `std::size_t` again for
`memset`.  The model has the widths of both types as parameters.
-/

namespace LvArray

variable {V : Type}

/-- A slot of an array of values after the first `n` bytes of the array were set to zero. -/
def clearCell (B : Bytes V) (n k : Nat) : Cell V → Cell V
  | .live v => .live (B.clear (min B.size (n - k * B.size)) v)
  | x => x

/-- `std::memset( data, 0, n )` on the entries: /repo/src/umpireInterface.cpp 66-77.  More bytes than there are is undefined
behaviour.  Memory without objects stays so: what it contains is not looked at. -/
def Buf.memset (B : Bytes V) (b : Buf V) (n : Nat) : R (Buf V) :=
  if b.cap * B.size < n then .error (.ub .outOfBounds)
  else .ok { b with cell := fun k => clearCell B n k (b.cell k) }

/-- `INDEX_TYPE const numBytes = m_entries.capacity() * sizeof( T )` and the conversion of `numBytes` to the parameter of `memset`:
/repo/src/CRSMatrixView.hpp 381-382.  `std::size_t` has `word` bits; `INDEX_TYPE` is signed and has `bits` bits: what does not fit is
cut off, and the conversion back extends the sign. -/
def zeroBytes (word bits cap size : Nat) : Nat :=
  let kept := cap * size % 2 ^ word % 2 ^ bits
  if kept < 2 ^ (bits - 1) then kept else kept + (2 ^ word - 2 ^ bits)

/-- `zero()`: /repo/src/CRSMatrixView.hpp 370-384, for memory on the host. -/
def Crs.zero (B : Bytes V) (word bits : Nat) (m : Crs V) : R (Crs V) :=
  if 0 < m.entries.cap then do
    let entries ← m.entries.memset B (zeroBytes word bits m.entries.cap B.size)
    .ok { m with entries := entries }
  else .ok m

/-- `matrix.zero()` in a program with views. -/
def MatWorld.zero (B : Bytes V) (word bits : Nat) (w : MatWorld V) : R (MatWorld V) := do
  let m ← w.obj.zero B word bits
  .ok { w with obj := m }

end LvArray

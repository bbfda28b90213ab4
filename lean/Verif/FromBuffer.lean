import Verif.Array1D
/-!
# A one-dimensional `Array` constructed from a buffer

`Array( BUFFER_TYPE && buffer )` with a `MallocBuffer`.
-/

namespace LvArray

variable {T : Type}

/-- Construction from a heap buffer: /repo/src/Array.hpp 113-128, with the view it is built on, /repo/src/ArrayView.hpp 738-745,
and the move constructor of the buffer, /repo/src/MallocBuffer.hpp 74-80.  Returns the new array and what is left of the buffer.
Simplified: strides and the name are not part of the one-dimensional model. -/
def Array1.ofBuffer (b : Buf T) : Array1 T × Buf T := ({ buf := b, size := 0 }, Buf.empty)

end LvArray

import Verif.TextIO
import Verif.SortedArray
import Verif.Sparse

/-!
# Text output of the other containers

As in `TextIO.lean` text is a list of characters and `show'` is what `stream << value` appends; integers (array numbers and columns)
are written by `showInt`.  `std::endl` is a newline.
-/

namespace LvArray.TextIO

variable {T V : Type}

/-- `stream << sortedArray`: /repo/src/output.hpp 98-122, 132-135. -/
def outputSet (c : Cfg) (show' : T → List Char) (a : SortedArr T) : R (List Char) :=
  if a.size = 0 then .ok ['{', '}']
  else do
    let first ← firstItem a.size (fun (i : Nat) => do .ok (show' (← a.get c i)))
    let items ← forUp (a.size - 1) 1 (fun (i : Nat) text => do
      let v ← a.get c i
      .ok (text ++ [',', ' '] ++ show' v)) first
    .ok (['{', ' '] ++ items ++ [' ', '}'])

/-- The inner loop over one array: /repo/src/output.hpp 154-157.  (The code asks for the size again before each iteration.) -/
def outputRow (c : Cfg) (show' : T → List Char) (a : AoA T) (i : Nat) (text : List Char) : R (List Char) := do
  let n ← a.shape.sizeOfArray c i
  forUp n 0 (fun j text => do
    let v ← a.get c i j
    .ok (text ++ show' v ++ [',', ' '])) text

/-- `stream << arrayOfArrays`: /repo/src/output.hpp 145-164, 174-177. -/
def outputRows (c : Cfg) (show' : T → List Char) (a : AoA T) : R (List Char) := do
  let body ← forUp a.shape.numArrays 0 (fun (i : Nat) text => do
    let text ← outputRow c show' a i (text ++ showInt i ++ ['\t', '{'])
    .ok (text ++ ['}', '\n'])) ['{', '\n']
  .ok (body ++ ['}', '\n'])

/-- `operator[]( i )` of `ArrayOfArraysView`, which `getColumns` calls, and `getEntries`: a slice without an array of strides.
/repo/src/ArrayOfArraysView.hpp 406-410, /repo/src/SparsityPatternView.hpp 277-279, /repo/src/CRSMatrixView.hpp 235-241. -/
def rowSlice (c : Cfg) (s : Shape) (i : Nat) : R Slice := do
  s.checkBounds c i
  let p ← s.offsets.read i
  let n ← s.sizes.read i
  .ok { data := p, dims := [n], strides := [0], usd := 0 }

/-- `stream << matrix`: /repo/src/output.hpp 187-201.  The number of columns is not written. -/
def outputMatrix (c : Cfg) (show' : V → List Char) (m : Crs V) : R (List Char) := do
  let body ← forUp m.shape.numArrays 0 (fun (i : Nat) text => do
    let columns ← write c (fun (k : Nat) => showInt k) m.columns 1 (← rowSlice c m.shape i)
    let entries ← write c show' m.entries 1 (← rowSlice c m.shape i)
    .ok (text ++ "row ".toList ++ showInt i ++ ['\n'] ++ "\tcolumns: ".toList ++ columns ++ ['\n'] ++
      "\tvalues: ".toList ++ entries ++ ['\n'])) ['{', '\n']
  .ok (body ++ ['}', '\n'])

/-- The formats `print` uses: `%4lld`, `%9lld` and `%9.2g` of the entry converted to `double`. -/
structure Formats (V : Type) where
  int4 : Nat → List Char
  int9 : Nat → List Char
  entry : V → List Char

/-- `print( matrix )`: /repo/src/output.hpp 213-256, what is written to the console.  The single iteration of the kernel is a
function call; `integerConversion< long long >` of an index does not fail here (see `IntConv.lean`). -/
def printMatrix (fmt : Formats V) (m : Crs V) : R (List Char) := do
  let numRows := m.shape.numArrays
  let text := "numRows = ".toList ++ fmt.int4 numRows ++ " \n".toList ++ "ncols       = { ".toList
  let text ← forUp numRows 0 (fun i text => do
    let n ← m.shape.sizes.read i
    .ok (text ++ fmt.int4 n ++ ", ".toList)) text
  let text ← forUp (numRows + 1) 0 (fun i text => do
    let p ← m.shape.offsets.read i
    .ok (text ++ fmt.int4 p ++ ", ".toList)) (text ++ " }\n".toList ++ "row_indexes = { ".toList)
  let text ← forUp numRows 0 (fun i text => do
    let n ← m.shape.sizes.read i
    forUp n 0 (fun j text => do
      let p ← m.shape.offsets.read i
      let k ← m.columns.read (p + j)
      let v ← m.entries.read (p + j)
      .ok (text ++ fmt.int4 i ++ " ".toList ++ fmt.int9 k ++ " ".toList ++ fmt.entry v ++ "\n".toList)) (text ++ fmt.int4 n ++ "\n".toList))
    (text ++ " }\n".toList ++ "row      col      value \n".toList ++ "----  --------- --------- \n".toList)
  .ok (text ++ ['\n'])

/-- `stream << array` for a C array with `n` elements, whose texts are `item`: /repo/src/output.hpp 266-277.  A C array has at least
one element.  The elements of a two dimensional one are C arrays: 288-298. -/
def outputCArray (item : Nat → List Char) (n : Nat) : R (List Char) := do
  if n = 0 then .error (.ub .outOfBounds)
  let items ← forUp (n - 1) 1 (fun i text => .ok (text ++ [',', ' '] ++ item i)) (['{', ' '] ++ item 0)
  .ok (items ++ [' ', '}'])

end LvArray.TextIO

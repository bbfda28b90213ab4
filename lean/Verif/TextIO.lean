import Verif.ArrayND

/-!
# Text output and input of `Array`

Text is a list of characters.  How one value is written (`show'`, what `stream << value` appends) and read (`extract`, what
`stream >> value` does: the value and the rest of the text, or `none` if the stream fails) depends on `T` and is a parameter.
-/

namespace LvArray.TextIO

open indexing

variable {T : Type}

/-! ## Output -/

/-- `stream << slice[ 0 ]` if there is one: /repo/src/output.hpp 54-57. -/
def firstItem (n : Nat) (item : Nat → R (List Char)) : R (List Char) := if 0 < n then item 0 else .ok []

/-- `operator<<( std::ostream &, ArraySlice const & )`: /repo/src/output.hpp 48-66.  The first argument is `NDIM`; a slice
without dimensions is a value. -/
def write (c : Cfg) (show' : T → List Char) (b : Buf T) : Nat → Slice → R (List Char)
  | 0, s => do
    if s.data < 0 then .error (.ub .outOfBounds)
    let v ← b.read s.data.toNat
    .ok (show' v)
  | ndim + 1, s => do
    let first ← firstItem (s.dims.headD 0) (fun i => do write c show' b ndim (← s.at_ c i))
    let items ← forUp (s.dims.headD 0 - 1) 1 (fun i text => do
      let item ← write c show' b ndim (← s.at_ c i)
      .ok (text ++ [',', ' '] ++ item)) first
    .ok (['{', ' '] ++ items ++ [' ', '}'])

/-- `stream << array`: /repo/src/output.hpp 79-87, 48-66. -/
def output (c : Cfg) (show' : T → List Char) (a : ArrayN T) : R (List Char) :=
  write c show' a.buf a.dims.length a.view

/-! ## Input -/

/-- One iteration of the loop that rejects values separated by spaces only; the state is (`valueOnLeft`, `spaceOnLeft`):
/repo/src/input.hpp 138-163. -/
def delimiterStep (st : Bool × Bool) (ch : Char) : R (Bool × Bool) := do
  errorIf (ch != '{' && ch != ',' && ch != '}' && ch != ' ' && st.1 && st.2)
  if ch = '{' ∨ ch = ',' ∨ ch = '}' then .ok (false, false)
  else if ch ≠ ' ' then .ok (true, false)
  else .ok (st.1, true)

/-- The whole loop: /repo/src/input.hpp 134-164. -/
def checkDelimiters (st : Bool × Bool) : List Char → R (Bool × Bool)
  | [] => .ok st
  | ch :: rest => do checkDelimiters (← delimiterStep st ch) rest

/-- `valueString.find( "xy" ) != std::string::npos`: /repo/src/input.hpp 177, 192. -/
def hasPair (x y : Char) : List Char → Bool
  | a :: b :: rest => (a == x && b == y) || hasPair x y (b :: rest)
  | _ => false

/-- Local variables of the pass that finds the dimensions: /repo/src/input.hpp 207-224.  The arrays have `NDIM` entries. -/
structure Scan where
  dimLevel : Int
  dims : Nat → Nat
  currentDims : Nat → Nat
  dimSet : Nat → Bool
  lastChar : Char

/-- Their values before the pass, /repo/src/input.hpp 207-226. -/
def Scan.init : Scan :=
  { dimLevel := -1, dims := fun _ => 1, currentDims := fun _ => 1, dimSet := fun _ => false, lastChar := Char.ofNat 0 }

/-- An access to an entry of one of the arrays. -/
def Scan.level (ndim : Nat) (s : Scan) : R Nat :=
  if 0 ≤ s.dimLevel ∧ s.dimLevel < ndim then .ok s.dimLevel.toNat else .error (.ub .outOfBounds)

/-- One iteration of the pass, `last` says whether `ch` is the last character: /repo/src/input.hpp 227-265. -/
def Scan.step (ndim : Nat) (s : Scan) (ch : Char) (last : Bool) : R Scan :=
  if ch = '{' then .ok { s with dimLevel := s.dimLevel + 1, lastChar := ch }
  else if ch = '}' then do
    let l ← s.level ndim
    errorIf (s.dims l != s.currentDims l)
    errorIf (decide (s.dimLevel - 1 < 0) && !last)
    .ok { s with dimSet := upd s.dimSet l true, currentDims := upd s.currentDims l 1, dimLevel := s.dimLevel - 1, lastChar := ch }
  else if ch = ',' then do
    errorIf (s.lastChar == '{' || s.lastChar == ',')
    let l ← s.level ndim
    .ok { s with
      dims := if s.dimSet l then s.dims else upd s.dims l (s.dims l + 1)
      currentDims := upd s.currentDims l (s.currentDims l + 1)
      lastChar := ch }
  else .ok { s with lastChar := ch }

/-- The pass: /repo/src/input.hpp 227-266. -/
def Scan.run (ndim : Nat) (s : Scan) : List Char → R Scan
  | [] => .ok s
  | ch :: rest => do run ndim (← s.step ndim ch rest.isEmpty) rest

/-- `skipDelimiters`: /repo/src/input.hpp 45-51. -/
def skipDelimiters (text : List Char) : List Char := text.dropWhile (· == ' ')

/-- `StringToArrayHelper::Read` of a value: /repo/src/input.hpp 58-68.  (If the stream fails before its end, composing the
message calls `substr( tellg() )` with `tellg() == -1` and throws `std::out_of_range` instead of aborting; both are `abort`
here.) -/
def readValue (extract : List Char → Option (T × List Char)) (text : List Char) : R (T × List Char) :=
  match extract text with
  | some r => .ok r
  | none => .error .abort

/-- `StringToArrayHelper::Read`: /repo/src/input.hpp 58-94; the number is `NDIM`, the text what is left in the stream. -/
def read (c : Cfg) (extract : List Char → Option (T × List Char)) : Nat → Slice → List Char → Buf T → R (List Char × Buf T)
  | 0, s, text, b => do
    let r ← readValue extract text
    if s.data < 0 then .error (.ub .outOfBounds)
    let b ← b.write c s.data.toNat r.1
    .ok (r.2, b)
  | ndim + 1, s, text, b => do
    errorIf (text.head? != some '{')
    let r ← forUp (s.dims.headD 0) 0 (fun i (r : List Char × Buf T) => do
      read c extract ndim (← s.at_ c i) (skipDelimiters r.1) r.2) (text.drop 1, b)
    let text := skipDelimiters r.1
    errorIf (text.head? != some '}')
    .ok (text.drop 1, r.2)

/-- The checks before the dimensions are determined, on the text without spaces: /repo/src/input.hpp 177-201.
(`integerConversion< int >` of the position aborts as well if it does not fit.) -/
def checkFormat (ndim : Nat) (s : List Char) : R Unit := do
  errorIf (hasPair '}' '{' s)
  errorIf (s.head? != some '{')
  errorIf (s.count '{' != s.count '}')
  errorIf (hasPair '{' '}' s)
  errorIf (s.findIdx? (· != '{') != some ndim)

/-- Replacing `,` and inserting a space before every `}`: /repo/src/input.hpp 276-287. -/
def separate (s : List Char) : List Char :=
  (s.map fun ch => if ch = ',' then ' ' else ch).flatMap fun ch => if ch = '}' then [' ', '}'] else [ch]

/-- `stringToArray`: /repo/src/input.hpp 121-291; `v` is `T()`. -/
def stringToArray (c : Cfg) (extract : List Char → Option (T × List Char)) (a : ArrayN T) (v : T) (text : List Char) :
    R (ArrayN T) := do
  let _ ← checkDelimiters (false, false) text
  let s := text.filter (· != ' ')
  if s = ['{', '}'] then a.clear c v
  else do
    checkFormat a.dims.length s
    let st ← Scan.init.run a.dims.length s
    errorIf (st.dimLevel != -1)
    let a ← a.resize c ((List.range a.dims.length).map fun k => (st.dims k : Int)) v
    let r ← read c extract a.dims.length a.view (separate s) a.buf
    .ok { a with buf := r.2 }

/-! ## Values of type `std::string` and of integer types -/

/-- `stream << value` for `std::string` (standard library). -/
def showString (v : List Char) : List Char := v

/-- `stream >> value` for `std::string` (standard library): skip white space, take everything up to the next white space; fails if
that is empty. -/
def extractString (text : List Char) : Option (List Char × List Char) :=
  let text := text.dropWhile Char.isWhitespace
  let v := text.takeWhile (!Char.isWhitespace ·)
  if v = [] then none else some (v, text.dropWhile (!Char.isWhitespace ·))

/-- `stream << value` for an integer (standard library): its decimal digits, preceded by a minus sign if it is negative. -/
def showInt (v : Int) : List Char := if v < 0 then '-' :: Nat.toDigits 10 v.natAbs else Nat.toDigits 10 v.natAbs

/-- The number written by decimal digits. -/
def ofDigits (ds : List Char) : Nat := ds.foldl (fun n ch => 10 * n + (ch.toNat - '0'.toNat)) 0

/-- An optional sign: whether it is a minus sign, and the rest. -/
def takeSign : List Char → Bool × List Char
  | '-' :: rest => (true, rest)
  | '+' :: rest => (false, rest)
  | text => (false, text)

/-- `stream >> value` for a signed integer type with values `lo, ..., hi` (standard library): skip white space, take a sign and the
longest sequence of decimal digits; fails if there are no digits or the value is out of range. -/
def extractInt (lo hi : Int) (text : List Char) : Option (Int × List Char) :=
  let r := takeSign (text.dropWhile Char.isWhitespace)
  let ds := r.2.takeWhile Char.isDigit
  let v : Int := if r.1 then - (ofDigits ds : Int) else ofDigits ds
  if ds = [] then none else if v < lo then none else if hi < v then none else some (v, r.2.dropWhile Char.isDigit)

end LvArray.TextIO

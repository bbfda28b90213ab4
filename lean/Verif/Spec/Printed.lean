import Verif.Spec.Text

/-!
# The texts of sets, arrays of arrays and matrices

Nothing here mentions how LvArray writes text.
-/

namespace LvArray.Spec

variable {T V : Type}

/-- Decimal digits. -/
def decimal (n : Nat) : List Char := Nat.toDigits 10 n

/-- `{ x, y, z }`. -/
def listed (show' : T → List Char) (xs : List T) : List Char :=
  "{ ".toList ++ ", ".toList.intercalate (xs.map show') ++ " }".toList

/-- `{ x, y, z }`, or `{}` for the empty set. -/
def printedSet (show' : T → List Char) (xs : List T) : List Char := if xs.isEmpty then "{}".toList else listed show' xs

/-- One line for each array: its number, a tab, and its values in braces, each followed by a comma and a space. -/
def printedRows (show' : T → List Char) (rows : List (List T)) : List Char :=
  "{\n".toList ++
  (rows.zipIdx.map fun r =>
    decimal r.2 ++ "\t{".toList ++ (r.1.map fun x => show' x ++ ", ".toList).flatten ++ "}\n".toList).flatten ++
  "}\n".toList

/-- Three lines for each row: its number, its columns and its entries. -/
def printedMatrix (show' : V → List Char) (rows : List (List (Nat × V))) : List Char :=
  "{\n".toList ++
  (rows.zipIdx.map fun r =>
    "row ".toList ++ decimal r.2 ++ "\n\tcolumns: ".toList ++ listed decimal (r.1.map (·.1)) ++
    "\n\tvalues: ".toList ++ listed show' (r.1.map (·.2)) ++ "\n".toList).flatten ++
  "}\n".toList

/-- The columns and entries of a row of a matrix with `n` columns, in increasing order of the columns. -/
def entriesOf (n : Nat) (f : Nat → Option V) : List (Nat × V) := (List.range n).filterMap fun k => (f k).map (k, ·)

/-- What the console shows of a matrix whose rows have these capacities: sizes, offsets, and one line for each entry.  The first three
arguments format a small number, a column and an entry. -/
def console (int4 int9 : Nat → List Char) (entry : V → List Char) (rows : List (List (Nat × V))) (caps : List Nat) : List Char :=
  "numRows = ".toList ++ int4 rows.length ++ " \n".toList ++
  "ncols       = { ".toList ++ (rows.map fun r => int4 r.length ++ ", ".toList).flatten ++ " }\n".toList ++
  "row_indexes = { ".toList ++ ((List.range (rows.length + 1)).map fun i => int4 (caps.take i).sum ++ ", ".toList).flatten ++
  " }\n".toList ++ "row      col      value \n".toList ++ "----  --------- --------- \n".toList ++
  (rows.zipIdx.map fun r => int4 r.1.length ++ "\n".toList ++
    (r.1.map fun x => int4 r.2 ++ " ".toList ++ int9 x.1 ++ " ".toList ++ entry x.2 ++ "\n".toList).flatten).flatten ++
  "\n".toList

/-- Different values (of those in `P`) have different texts, and each text is a word: not empty and without spaces, commas and
braces. -/
structure Legible (show' : T → List Char) (P : T → Prop) : Prop where
  inj : ∀ x y, P x → P y → show' x = show' y → x = y
  word : ∀ x, P x → show' x ≠ [] ∧ ∀ ch ∈ show' x, ch ≠ ' ' ∧ ch ≠ ',' ∧ ch ≠ '{' ∧ ch ≠ '}'

end LvArray.Spec

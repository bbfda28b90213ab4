import Verif.Sparse
import Verif.Spec.SetList

/-!
# What sparse matrices are

A sparsity pattern is a number of columns and, per row, the set of columns of its non zeros.  A sparse matrix is a number of
columns and, per row, a partial function from columns to entries.  `none` means that the call is not allowed; `colMax` is the
largest value of the column type.
-/

namespace LvArray.Spec

/-! ## Sparsity patterns -/

/-- Number of columns and the rows. -/
structure Pattern where
  numCols : Nat
  rows : List (Finset Nat)
  deriving DecidableEq

/-- Apply `f` to a row, which has to exist. -/
def Pattern.onRow (P : Pattern) (i : Nat) (f : Finset Nat → Finset Nat) (out : Finset Nat → AoSOut Nat) :
    Option (Pattern × AoSOut Nat) :=
  P.rows[i]?.map fun S => ({ P with rows := P.rows.set i (f S) }, out S)

/-- One call. -/
def spStep (colMax : Nat) (P : Pattern) : SpOp → Option (Pattern × AoSOut Nat)
  | .insert i k => if k < P.numCols then P.onRow i (insert k ·) fun S => .bool (decide (k ∉ S)) else none
  | .insertMany i ks =>
    if sortedUnique ks ∧ ∀ k ∈ ks, k < P.numCols then P.onRow i (· ∪ ks.toFinset) fun S => .num (ks.toFinset \ S).card
    else none
  | .remove i k => if k < P.numCols then P.onRow i (·.erase k) fun S => .bool (decide (k ∈ S)) else none
  | .removeMany i ks =>
    if sortedUnique ks ∧ ∀ k ∈ ks, k < P.numCols then P.onRow i (· \ ks.toFinset) fun S => .num (S ∩ ks.toFinset).card
    else none
  | .isEmpty i k => P.onRow i id fun S => .bool (decide (k ∉ S))
  -- the first `n` columns stay
  | .setRowCapacity i n => P.onRow i (fun S => ((S.sort (· ≤ ·)).take n).toFinset) fun _ => .unit
  | .reserveNonZeros i _ => P.onRow i id fun _ => .unit
  | .reserveNonZerosTotal _ => some (P, .unit)
  | .reserveRows _ => some (P, .unit)
  | .appendRow _ => some ({ P with rows := P.rows ++ [∅] }, .unit)
  -- existing columns have to stay in range
  | .resize r n _ =>
    if n ≤ colMax + 1 ∧ ∀ S ∈ P.rows.take r, ∀ k ∈ S, k < n then
      some ({ numCols := n, rows := P.rows.take r ++ List.replicate (r - P.rows.length) ∅ }, .unit)
    else none
  | .resizeFromRowCapacities n ks =>
    if n ≤ colMax + 1 then some ({ numCols := n, rows := List.replicate ks.length ∅ }, .unit) else none
  | .compress => some (P, .unit)
  | .numNonZeros => some (P, .num (P.rows.map (·.card)).sum)

/-- A history of calls, with what they return. -/
def spRun (colMax : Nat) : Pattern → List SpOp → Option (Pattern × List (AoSOut Nat))
  | P, [] => some (P, [])
  | P, op :: ops => (spStep colMax P op).bind fun r => (spRun colMax r.1 ops).map fun r' => (r'.1, r.2 :: r'.2)

/-! ## Sparse matrices -/

variable {V : Type}

/-- Number of columns and the rows. -/
structure Matrix (V : Type) where
  numCols : Nat
  rows : List (Nat → Option V)

/-- The columns of a row that hold an entry, in increasing order. -/
def columnsOf (numCols : Nat) (f : Nat → Option V) : List Nat := (List.range numCols).filter fun k => (f k).isSome

/-- Apply `f` to a row, which has to exist and to satisfy `ok`. -/
def Matrix.onRow (M : Matrix V) (i : Nat) (ok : (Nat → Option V) → Bool) (f : (Nat → Option V) → Nat → Option V)
    (out : (Nat → Option V) → AoSOut (Nat ⊕ V)) : Option (Matrix V × AoSOut (Nat ⊕ V)) :=
  match M.rows[i]? with
  | some r => if ok r then some ({ M with rows := M.rows.set i (f r) }, out r) else none
  | none => none

/-- Add to one entry. -/
def addEntry [Add V] (f : Nat → Option V) (a : Nat × V) : Nat → Option V :=
  fun k => if k = a.1 then (f k).map (· + a.2) else f k

/-- Only the unsorted variant of `addToRow` accepts columns in any order. -/
def orderOk : AddVariant → List Nat → Prop
  | .unsorted, _ => True
  | _, ks => sortedUnique ks

instance (how : AddVariant) (ks : List Nat) : Decidable (orderOk how ks) := by
  cases how <;> unfold orderOk <;> infer_instance

/-- One call. -/
def crsStep [Add V] (colMax : Nat) (M : Matrix V) : CrsOp V → Option (Matrix V × AoSOut (Nat ⊕ V))
  | .insert i k v =>
    if k < M.numCols then
      M.onRow i (fun _ => true) (fun f j => if j = k then (f j).or (some v) else f j) fun f => .bool (f k).isNone
    else none
  -- entries that exist keep their value
  | .insertMany i args =>
    if sortedUnique (args.map (·.1)) ∧ ∀ a ∈ args, a.1 < M.numCols then
      M.onRow i (fun _ => true) (fun f j => (f j).or (args.lookup j)) fun f => .num (args.countP fun a => (f a.1).isNone)
    else none
  | .remove i k =>
    M.onRow i (fun _ => true) (fun f j => if j = k then none else f j) fun f => .bool (f k).isSome
  | .removeMany i ks =>
    if sortedUnique ks then
      M.onRow i (fun _ => true) (fun f j => if j ∈ ks then none else f j) fun f => .num (ks.countP fun k => (f k).isSome)
    else none
  | .isEmpty i k => M.onRow i (fun _ => true) id fun f => .bool (f k).isNone
  | .getColumn i k => do
    let f ← M.rows[i]?
    let j ← (columnsOf M.numCols f)[k]?
    some (M, .val (.inl j))
  | .getEntry i k => do
    let f ← M.rows[i]?
    let j ← (columnsOf M.numCols f)[k]?
    let v ← f j
    some (M, .val (.inr v))
  -- the first `n` columns stay
  | .setRowCapacity i n =>
    M.onRow i (fun _ => true) (fun f j => if (columnsOf j f).length < n then f j else none) fun _ => .unit
  | .reserveNonZeros i _ => M.onRow i (fun _ => true) id fun _ => .unit
  | .reserveNonZerosTotal _ => some (M, .unit)
  -- existing columns have to stay in range
  | .resize r n _ =>
    if n ≤ colMax + 1 ∧ ∀ f ∈ M.rows.take r, ∀ k ∈ columnsOf M.numCols f, k < n then
      some ({ numCols := n, rows := M.rows.take r ++ List.replicate (r - M.rows.length) (fun _ => none) }, .unit)
    else none
  | .resizeFromRowCapacities n ks =>
    if n ≤ colMax + 1 then some ({ numCols := n, rows := List.replicate ks.length (fun _ => none) }, .unit) else none
  | .compress => some (M, .unit)
  | .numNonZeros => some (M, .num (M.rows.map fun f => (columnsOf M.numCols f).length).sum)
  | .setValues v => some ({ M with rows := M.rows.map fun f j => (f j).map fun _ => v }, .unit)
  | .addToRow how i args =>
    if orderOk how (args.map (·.1)) then
      M.onRow i (fun f => args.all fun a => (f a.1).isSome) (fun f => args.foldl addEntry f) fun _ => .unit
    else none

/-- A history of calls, with what they return. -/
def crsRun [Add V] (colMax : Nat) : Matrix V → List (CrsOp V) → Option (Matrix V × List (AoSOut (Nat ⊕ V)))
  | M, [] => some (M, [])
  | M, op :: ops => (crsStep colMax M op).bind fun r => (crsRun colMax r.1 ops).map fun r' => (r'.1, r.2 :: r'.2)

end LvArray.Spec

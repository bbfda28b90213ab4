import Verif.Spec.VecVec
/-!
# Specification: calls on a vector of vectors that throw

A history is a list of calls, each with the constructors of it that throw (they are counted from the beginning of the call).
-/

namespace LvArray.Spec

variable {T : Type} [Inhabited T]

omit [Inhabited T] in
/-- The call constructs values, all of them behind the last value of an inner array that is there before the call. -/
def ConstructsAtEnd (rows : List (List T)) : AoAOp T → Prop
  | .emplaceBack _ _ => True
  | .appendToArray _ vs => vs ≠ []
  | .emplace i j _ => rows[i]?.map List.length = some j
  | .insertIntoArray i j vs => vs ≠ [] ∧ rows[i]?.map List.length = some j
  | .resizeArray i n _ => ∃ r, rows[i]? = some r ∧ r.length < n
  | _ => False

/-- The rows after a history of legal calls, and which of them threw: either no constructor throws and the call has its effect,
or the first one throws, all values go to the end of an inner array, and the call has no effect. -/
inductive RowsAfter : List (List T) → List (AoAOp T × (Nat → Bool)) → List (List T) → List Bool → Prop
  | done (rows : List (List T)) : RowsAfter rows [] rows []
  | returns {rows rows1 rows' : List (List T)} {op : AoAOp T} {throws : Nat → Bool} {ops threw}
      (legal : vvStep rows op = some rows1) (never : ∀ k, throws k = false) (rest : RowsAfter rows1 ops rows' threw) :
      RowsAfter rows ((op, throws) :: ops) rows' (false :: threw)
  | throws {rows rows1 rows' : List (List T)} {op : AoAOp T} {throws : Nat → Bool} {ops threw}
      (legal : vvStep rows op = some rows1) (atEnd : ConstructsAtEnd rows op) (first : throws 0 = true)
      (rest : RowsAfter rows ops rows' threw) : RowsAfter rows ((op, throws) :: ops) rows' (true :: threw)

end LvArray.Spec

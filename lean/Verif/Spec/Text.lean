import Verif.Spec.Index

/-!
# The text of a nested array

Nothing here mentions how LvArray writes or reads text.
-/

namespace LvArray.Spec

variable {T : Type}

/-- The tokens of the nested list of the values `f idx` for the multi-indices of a box: `{ x, y, ... }` for one dimension, a list of
such lists for two, and so on. -/
def tokens (show' : T → List Char) : List Nat → (List Int → T) → List (List Char)
  | [], f => [show' (f [])]
  | d :: ds, f =>
    [['{']] ++
    [[',']].intercalate ((List.range d).map fun (i : Nat) => tokens show' ds fun idx => f ((i : Int) :: idx)) ++
    [['}']]

/-- `text` consists of the tokens with any number of spaces before, between and after them. -/
inductive Spaced : List (List Char) → List Char → Prop
  | nil (n : Nat) : Spaced [] (List.replicate n ' ')
  | cons (n : Nat) (t : List Char) {ts : List (List Char)} {text : List Char} :
      Spaced ts text → Spaced (t :: ts) (List.replicate n ' ' ++ (t ++ text))

/-- The text LvArray is documented to print: one space inside each brace and after each comma. -/
def pretty (show' : T → List Char) : List Nat → (List Int → T) → List Char
  | [], f => show' (f [])
  | d :: ds, f =>
    "{ ".toList ++
    ", ".toList.intercalate ((List.range d).map fun (i : Nat) => pretty show' ds fun idx => f ((i : Int) :: idx)) ++
    " }".toList

/-- The text of `v` is one token, from which `v` can be read back when a space follows. -/
structure ReadsBack (show' : T → List Char) (extract : List Char → Option (T × List Char)) (v : T) : Prop where
  nonempty : show' v ≠ []
  plain : ∀ ch ∈ show' v, ch ≠ ' ' ∧ ch ≠ '{' ∧ ch ≠ '}' ∧ ch ≠ ','
  back : ∀ rest, extract (show' v ++ ' ' :: rest) = some (v, ' ' :: rest)

end LvArray.Spec

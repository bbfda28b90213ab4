/-!
# Specification: arguments

A value can be given as something that is left as it was when an element is built from it, or as something that is used up.  A
range can be given by iterators that may be used again from a copy, or by iterators that go over the values once.
-/

namespace LvArray

/-- Iterator categories. -/
inductive Category where
  /-- `std::random_access_iterator_tag` -/
  | random
  /-- `std::forward_iterator_tag`, `std::bidirectional_iterator_tag` -/
  | forward
  /-- `std::input_iterator_tag`: once an iterator was incremented, copies of its previous value must not be used -/
  | input
  deriving DecidableEq, Repr

/-- The range `[ first, last )` of an argument. -/
structure Source (T : Type) where
  items : List T
  category : Category

namespace Spec

/-- The values of `n` elements built one after another from the same arguments; `make` says what is built from arguments and what
is left of them. -/
def made {A T : Type} (make : A → T × A) : Nat → A → List T
  | 0, _ => []
  | n + 1, a => (make a).1 :: made make n (make a).2

/-- What is left of the arguments. -/
def leftOf {A T : Type} (make : A → T × A) : Nat → A → A
  | 0, a => a
  | n + 1, a => leftOf make n (make a).2

end Spec

end LvArray

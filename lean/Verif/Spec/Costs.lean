import Verif.Counted

/-!
# What it means for a call to cost so many operations
-/

namespace LvArray.Spec

/-- The counting call `m` does what the call `x` does, and when it returns it has done at least `lo` and at most `hi`
operations on elements, wherever the counter started. -/
structure Costs {α : Type} (m : Counted α) (x : R α) (lo hi : Nat) : Prop where
  returns : ∀ n a, x = .ok a → ∃ k, lo ≤ k ∧ k ≤ hi ∧ m n = .ok (a, n + k)
  fails : ∀ n e, x = .error e → m n = .error e

/-- The counting call `m` does what the call `x` does, with at most `n` operations on elements. -/
def CostsAtMost {α : Type} (m : Counted α) (x : R α) (n : Nat) : Prop := Costs m x 0 n

end LvArray.Spec

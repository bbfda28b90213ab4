import Verif.Array1D
/-!
# Specification: `std::vector`

What each operation does to a sequence, independently of any memory.  `none` means the call violates the
documented precondition (position outside the sequence, negative size, `pop_back` of an empty vector) or, for
a container of limited capacity, asks for more elements than fit.
-/

namespace LvArray.Spec

/-- Does a sequence of `n` elements fit? `none` = no limit. -/
def fits (limit : Option Nat) (n : Nat) : Prop := ∀ l, limit = some l → n ≤ l

instance (limit : Option Nat) (n : Nat) : Decidable (fits limit n) :=
  match limit with
  | none => isTrue (fun _ h => by cases h)
  | some l => if h : n ≤ l then isTrue (fun _ e => by cases e; exact h)
              else isFalse (fun H => h (H l rfl))

/-- Effect of one operation on the sequence of elements. -/
def vecStep {T : Type} [Inhabited T] (limit : Option Nat) (xs : List T) : VecOp T → Option (List T)
  | .emplaceBack v => if fits limit (xs.length + 1) then some (xs ++ [v]) else none
  | .emplace pos v =>
    if 0 ≤ pos ∧ pos ≤ xs.length ∧ fits limit (xs.length + 1)
    then some (xs.take pos.toNat ++ v :: xs.drop pos.toNat) else none
  | .insert pos vs =>
    if 0 ≤ pos ∧ pos ≤ xs.length ∧ fits limit (xs.length + vs.length)
    then some (xs.take pos.toNat ++ vs ++ xs.drop pos.toNat) else none
  | .popBack => if xs = [] then none else some xs.dropLast
  | .erase pos => if 0 ≤ pos ∧ pos < xs.length then some (xs.eraseIdx pos.toNat) else none
  | .resize n =>
    if 0 ≤ n ∧ fits limit n.toNat
    then some (xs.take n.toNat ++ List.replicate (n.toNat - xs.length) default) else none
  | .resizeDefault n v =>
    if 0 ≤ n ∧ fits limit n.toNat
    then some (xs.take n.toNat ++ List.replicate (n.toNat - xs.length) v) else none
  | .reserve n => if fits limit n.toNat then some xs else none
  | .clear => some []
  | .set i v => if 0 ≤ i ∧ i < xs.length then some (xs.set i.toNat v) else none

/-- Effect of a history, starting from the sequence `xs`. -/
def vecRun {T : Type} [Inhabited T] (limit : Option Nat) : List T → List (VecOp T) → Option (List T)
  | xs, [] => some xs
  | xs, op :: ops => vecStep limit xs op >>= fun xs => vecRun limit xs ops

end LvArray.Spec

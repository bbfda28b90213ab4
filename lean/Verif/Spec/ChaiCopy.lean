import Verif.ChaiCopy
import Verif.Spec.Spaces
/-!
# Specification: arrays that are copied to each other

Every array is one sequence of values (`Spec/Spaces.lean`), and a copy assigns the values at once.  `none` means that the program breaks the
rules: those of single arrays, the ranges lie in the arrays and do not overlap, and until the event of an asynchronous copy was waited for
the array of its destination is used by nothing but other copies, that of its source only read or used by other copies, no copy uses its
destination range, and none has its source range as destination.
-/

namespace LvArray.Spec

open LvArray.Chai (Space Op CopyOp)

/-- Slots `first, ..., first + len - 1` of an array. -/
structure Range where
  array : Nat
  first : Nat
  len : Nat

/-- Have the two ranges a slot in common? -/
def Range.meets (a b : Range) : Bool := a.array = b.array && decide (a.first < b.first + b.len) && decide (b.first < a.first + a.len)

/-- The arrays, and for each copy its destination and source until its event was waited for. -/
structure Copied (T : Type) where
  arrays : List (Everywhere T)
  active : List (Option (Range × Range))

/-- Is array `k` the destination of a copy? -/
def Copied.isDst {T : Type} (a : Copied T) (k : Nat) : Bool :=
  a.active.any fun p => match p with | some (d, _) => d.array == k | none => false

/-- Is array `k` the source of a copy? -/
def Copied.isSrc {T : Type} (a : Copied T) (k : Nat) : Bool :=
  a.active.any fun p => match p with | some (_, s) => s.array == k | none => false

/-- May a copy from `s` to `d` run at the same time as the others? -/
def Copied.allows {T : Type} (a : Copied T) (d s : Range) : Bool :=
  !d.meets s && a.active.all fun p => match p with
    | some (d', s') => !d.meets d' && !d.meets s' && !s.meets d'
    | none => true

/-- Does the operation only read? -/
def onlyReads {T : Type} : Op T → Bool
  | .read .. | .toViewConst .. => true
  | _ => false

/-- The two views are moved to where the data is, the destination is touched. -/
def bothMoved {T : Type} (l : List (Everywhere T)) (d v s w : Nat) : Option (List (Everywhere T)) :=
  match l[d]? with
  | none => none
  | some a =>
    match spacesStep a (.move v (some a.current) true) with
    | none => none
    | some (a, _) =>
      match (l.set d a)[s]? with
      | none => none
      | some b =>
        match spacesStep b (.move w (some b.current) false) with
        | none => none
        | some (b, _) => some ((l.set d a).set s b)

/-- `len` values of `src` from `srcFirst` on replace those of `dst` from `dstFirst` on. -/
def pasted {T : Type} (dst src : Nat → Option T) (dstFirst srcFirst len : Nat) : Nat → Option T :=
  fun i => if dstFirst ≤ i ∧ i < dstFirst + len then src (srcFirst + (i - dstFirst)) else dst i

def copiedStep {T : Type} (a : Copied T) : CopyOp T → Option (Copied T × Option T)
  | .on k op =>
    if a.isDst k || (a.isSrc k && !onlyReads op) then none
    else
      match a.arrays[k]? with
      | none => none
      | some x =>
        match spacesStep x op with
        | none => none
        | some (x, out) => some ({ a with arrays := a.arrays.set k x }, out)
  | .memcpy async d v dstFirst s w srcFirst len =>
    match bothMoved a.arrays d v s w with
    | none => none
    | some l =>
      match l[d]?, l[s]? with
      | some x, some y =>
        if (x.view v).map Prod.snd = some false ∧ dstFirst + len ≤ x.cap ∧ srcFirst + len ≤ y.cap ∧
            a.allows ⟨d, dstFirst, len⟩ ⟨s, srcFirst, len⟩ = true then
          some ({ arrays := l.set d { x with value := pasted x.value y.value dstFirst srcFirst len },
                  active := a.active ++ [if async then some (⟨d, dstFirst, len⟩, ⟨s, srcFirst, len⟩) else none] }, none)
        else none
      | _, _ => none
  | .progress _ _ => some (a, none)
  | .wait e => if e < a.active.length then some ({ a with active := a.active.set e none }, none) else none

/-- A history that keeps the rules, and the values it reads. -/
def copiedRun {T : Type} : Copied T → List (CopyOp T) → Option (Copied T × List T)
  | a, [] => some (a, [])
  | a, op :: ops =>
    match copiedStep a op with
    | none => none
    | some (a, out) =>
      match copiedRun a ops with
      | none => none
      | some (a, outs) => some (a, out.toList ++ outs)

end LvArray.Spec

import Verif.Chai
/-!
# Specification: one array that follows its views between memory spaces

There is one sequence of values, wherever the array is.  `none` means that the program breaks the documented rules: it uses a view in
another space than the one the data is in, modifies values through a read-only view or in a space that was not touched, or uses a view
of an allocation that was replaced.
-/

namespace LvArray.Spec

open LvArray.Chai (Space Op)

/-- The values, the number of slots, the space the data is in, whether that space is touched, and for each view where it was last moved
to and whether it is read-only (`none` = invalid). -/
structure Everywhere (T : Type) where
  value : Nat → Option T
  cap : Nat
  current : Space
  touched : Bool
  views : List (Option (Space × Bool))

/-- View `v`, if it is valid. -/
def Everywhere.view {T : Type} (a : Everywhere T) (v : Nat) : Option (Space × Bool) := (a.views[v]?).getD none

def spacesStep {T : Type} (a : Everywhere T) : Op T → Option (Everywhere T × Option T)
  | .move v space touch =>
    match a.view v, space with
    | none, _ => none
    | some _, none => some (a, none)
    | some (_, c), some s =>
      some ({ a with current := s, touched := (touch && !c) || (a.touched && s = a.current), views := a.views.set v (some (s, c)) }, none)
  | .capture v space =>
    match a.view v, space with
    | none, _ => none
    | some p, none => some ({ a with views := a.views ++ [some p] }, none)
    | some (_, c), some s =>
      some ({ a with current := s, touched := !c || (a.touched && s = a.current), views := a.views ++ [some (s, c)] }, none)
  | .toViewConst v =>
    match a.view v with
    | none => none
    | some (s, _) => some ({ a with views := a.views ++ [some (s, true)] }, none)
  | .write v s i x =>
    match a.view v with
    | none => none
    | some (p, c) =>
      if p = s ∧ s = a.current ∧ c = false ∧ a.touched = true ∧ i < a.cap
      then some ({ a with value := fun j => if j = i then some x else a.value j }, none) else none
  | .read v s i =>
    match a.view v with
    | none => none
    | some (p, _) =>
      if p = s ∧ s = a.current ∧ i < a.cap then
        match a.value i with
        | none => none
        | some x => some (a, some x)
      else none
  | .registerTouch v s =>
    match a.view v with
    | none => none
    -- a modification elsewhere must not be pending
    | some _ => if s = a.current ∨ a.touched = false then some ({ a with current := s, touched := true }, none) else none
  | .grow size newCap =>
    match a.view 0 with
    | none => none
    | some (p, c) =>
      if p = .host ∧ a.current = .host ∧ size ≤ a.cap ∧ 0 < newCap
      then some ({ value := fun i => if i < min newCap size then a.value i else none, cap := newCap, current := .host, touched := true,
                   views := (List.replicate a.views.length none).set 0 (some (.host, c)) }, none) else none

/-- A history that keeps the rules, and the values it reads. -/
def spacesRun {T : Type} : Everywhere T → List (Op T) → Option (Everywhere T × List T)
  | a, [] => some (a, [])
  | a, op :: ops =>
    match spacesStep a op with
    | none => none
    | some (a, out) =>
      match spacesRun a ops with
      | none => none
      | some (a, outs) => some (a, out.toList ++ outs)

/-- A fresh array of `n` slots on the host. -/
def fresh (T : Type) (n : Nat) : Everywhere T :=
  { value := fun _ => none, cap := n, current := .host, touched := true, views := [some (.host, false)] }

/-! ## An array of arrays -/

open LvArray.Chai (NOp)

/-- The values of all inner arrays, their sizes, the space the data is in, whether the inner arrays are touched there, and for each view
where it was last moved to and whether it is read-only. -/
structure NEverywhere (T : Type) where
  value : Nat → Nat → Option T
  caps : List Nat
  current : Space
  touched : Bool
  views : List (Space × Bool)

/-- When is a space writable after a move to `s`?  `strict = false`: if this move touches, or the data was already there and touched.
`strict = true`: only the move that brings the data to the space counts. -/
def touchedAfter (strict : Bool) (wasTouched : Bool) (current s : Space) (touch : Bool) : Bool :=
  if s = current then wasTouched || (!strict && touch) else touch

/-- One step.  `strict` adds two rules: which move counts as a touch (`touchedAfter`), and that data on the host is moved to the device
through a view that is on the host. -/
def nestedStep {T : Type} (strict : Bool) (a : NEverywhere T) : NOp T → Option (NEverywhere T × Option T)
  | .move v space touch =>
    match a.views[v]?, space with
    | none, _ => none
    | some _, none => some (a, none)
    | some (p, c), some s =>
      if strict = true ∧ a.current = .host ∧ s = .device ∧ p ≠ .host then none
      else some ({ a with current := s, touched := touchedAfter strict a.touched a.current s (touch && !c), views := a.views.set v (s, c) }, none)
  | .capture v space =>
    match a.views[v]?, space with
    | none, _ => none
    | some p, none => some ({ a with views := a.views ++ [p] }, none)
    | some (p, c), some s =>
      if strict = true ∧ a.current = .host ∧ s = .device ∧ p ≠ .host then none
      else some ({ a with current := s, touched := touchedAfter strict a.touched a.current s (!c), views := a.views ++ [(s, c)] }, none)
  | .toNestedViewConst v =>
    match a.views[v]? with
    | none => none
    | some (s, _) => some ({ a with views := a.views ++ [(s, true)] }, none)
  | .write v s i j x =>
    match a.views[v]?, a.caps[i]? with
    | some (p, c), some cap =>
      if p = s ∧ s = a.current ∧ c = false ∧ a.touched = true ∧ j < cap
      then some ({ a with value := fun i' j' => if i' = i ∧ j' = j then some x else a.value i' j' }, none) else none
    | _, _ => none
  | .read v s i j =>
    match a.views[v]?, a.caps[i]? with
    | some (p, _), some cap =>
      if p = s ∧ s = a.current ∧ j < cap then
        match a.value i j with
        | none => none
        | some x => some (a, some x)
      else none
    | _, _ => none

def nestedRun {T : Type} (strict : Bool) : NEverywhere T → List (NOp T) → Option (NEverywhere T × List T)
  | a, [] => some (a, [])
  | a, op :: ops =>
    match nestedStep strict a op with
    | none => none
    | some (a, out) =>
      match nestedRun strict a ops with
      | none => none
      | some (a, outs) => some (a, out.toList ++ outs)

/-- A fresh array of arrays on the host. -/
def nestedFresh (T : Type) (caps : List Nat) : NEverywhere T :=
  { value := fun _ _ => none, caps := caps, current := .host, touched := true, views := [(.host, false)] }

end LvArray.Spec

import Mathlib.Analysis.SpecialFunctions.Trigonometric.Arctan

/-!
# The angle of a point of the plane
-/

namespace LvArray.Spec

/-- `θ` is the angle of the point (x, y), in radians between -π and π: what `atan2( y, x )` is meant to return. -/
def IsAngle (θ y x : ℝ) : Prop :=
  -Real.pi < θ ∧ θ ≤ Real.pi ∧ x = √(x ^ 2 + y ^ 2) * Real.cos θ ∧ y = √(x ^ 2 + y ^ 2) * Real.sin θ

end LvArray.Spec

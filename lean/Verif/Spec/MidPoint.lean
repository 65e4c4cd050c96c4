import Verif.Model.Rotation

/-!
# Curves through two points
-/

namespace DNDSR.Mid

open DNDSR.Rot Matrix

/-- the tangent of a curve from `c0` to `c1` where the surface has the normal `n`: orthogonal to the normal, in the plane of the chord and the normal, along the chord, and as
long as it -/
structure IsTangent (c0 c1 n t : V3) : Prop where
  normal : t ⬝ᵥ n = 0
  plane : ∃ a b : ℝ, t = a • (c1 - c0) + b • n
  along : 0 < t ⬝ᵥ (c1 - c0)
  length : t ⬝ᵥ t = (c1 - c0) ⬝ᵥ (c1 - c0)

/-- a cubic curve, by its coefficients -/
def cubic (a b c d : V3) (s : ℝ) : V3 := a + s • b + s ^ 2 • c + s ^ 3 • d

/-- its derivative -/
def cubic' (b c d : V3) (s : ℝ) : V3 := b + (2 * s) • c + (3 * s ^ 2) • d

end DNDSR.Mid

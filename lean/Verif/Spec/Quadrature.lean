import Mathlib.MeasureTheory.Integral.IntervalIntegral.Basic
import Verif.Model.Elements

/-!
# The reference elements and the integrals over them
-/

namespace DNDSR.Quad

open DNDSR.Elem

/-- The integral over the reference element. -/
noncomputable def refIntegral (ps : ParamSpace) (F : (Fin 3 → ℝ) → ℝ) : ℝ :=
  match ps with
  | .line => ∫ x in (-1 : ℝ)..1, F ![x, 0, 0]
  | .tri => ∫ x in (0 : ℝ)..1, ∫ y in (0 : ℝ)..1 - x, F ![x, y, 0]
  | .quad => ∫ x in (-1 : ℝ)..1, ∫ y in (-1 : ℝ)..1, F ![x, y, 0]
  | .tet => ∫ x in (0 : ℝ)..1, ∫ y in (0 : ℝ)..1 - x, ∫ z in (0 : ℝ)..1 - x - y, F ![x, y, z]
  | .hex => ∫ x in (-1 : ℝ)..1, ∫ y in (-1 : ℝ)..1, ∫ z in (-1 : ℝ)..1, F ![x, y, z]
  | .prism => ∫ x in (0 : ℝ)..1, ∫ y in (0 : ℝ)..1 - x, ∫ z in (-1 : ℝ)..1, F ![x, y, z]
  | .pyramid => ∫ z in (0 : ℝ)..1, ∫ x in -(1 - z)..1 - z, ∫ y in -(1 - z)..1 - z, F ![x, y, z]
  | .unknown => 0

/-- The points of the reference element. -/
def InRef (ps : ParamSpace) (p : Fin 3 → ℝ) : Prop :=
  match ps with
  | .line => |p 0| ≤ 1 ∧ p 1 = 0 ∧ p 2 = 0
  | .tri => 0 ≤ p 0 ∧ 0 ≤ p 1 ∧ p 0 + p 1 ≤ 1 ∧ p 2 = 0
  | .quad => |p 0| ≤ 1 ∧ |p 1| ≤ 1 ∧ p 2 = 0
  | .tet => 0 ≤ p 0 ∧ 0 ≤ p 1 ∧ 0 ≤ p 2 ∧ p 0 + p 1 + p 2 ≤ 1
  | .hex => |p 0| ≤ 1 ∧ |p 1| ≤ 1 ∧ |p 2| ≤ 1
  | .prism => 0 ≤ p 0 ∧ 0 ≤ p 1 ∧ p 0 + p 1 ≤ 1 ∧ |p 2| ≤ 1
  | .pyramid => 0 ≤ p 2 ∧ |p 0| ≤ 1 - p 2 ∧ |p 1| ≤ 1 - p 2
  | .unknown => False

end DNDSR.Quad

import Verif.Model.BaseValue
import Verif.Spec.Jet
import Mathlib.Order.Bounds.Basic

/-!
# The base functions of a cell, as functions
-/

namespace DNDSR.Jet

open Matrix

/-- The axes of the cell's local coordinates, as columns. -/
noncomputable def CellBase.axes (C : CellBase) : Per.M3 := if C.localOrientation then C.majorCoord else 1

/-- The half extents of the cell along these axes. -/
def CellBase.box (C : CellBase) : Per.V3 := if C.localOrientation then C.majorHBox else C.alignedHBox

/-- The scales of the first `k` local coordinates: the extents, or the largest of them for all. -/
def IsScale {k : Nat} (C : CellBase) (hk : k ≤ 3) (s : Fin k → ℝ) : Prop :=
  (C.anisotropicLengths = true → ∀ i, s i = C.box (i.castLE hk)) ∧
  (C.anisotropicLengths = false → ∀ i, IsGreatest (Set.range fun a : Fin k => C.box (a.castLE hk)) (s i))

/-- The local coordinates of a point of the plane, relative to the centre. -/
noncomputable def CellBase.local2 (C : CellBase) (y : Fin 2 → ℝ) : Fin 2 → ℝ :=
  fun m => ∑ i : Fin 2, C.axes i.castSucc m.castSucc * (y i - C.cent i.castSucc)

/-- The local coordinates of a point of space, relative to the centre. -/
noncomputable def CellBase.local3 (C : CellBase) (y : Fin 3 → ℝ) : Fin 3 → ℝ := fun m => ∑ i, C.axes i m * (y i - C.cent i)

end DNDSR.Jet

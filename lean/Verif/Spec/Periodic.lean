import Mathlib.Data.Matrix.Mul
import Mathlib.Data.Real.Basic

/-!
# Rigid motions
-/

namespace DNDSR.Per

open Matrix

/-- An orthogonal matrix. -/
def Rigid {n : Nat} (R : Matrix (Fin n) (Fin n) ℝ) : Prop := Rᵀ * R = 1 ∧ R * Rᵀ = 1

/-- The square of the distance of two points. -/
def dist2 {n : Nat} (a b : Fin n → ℝ) : ℝ := (a - b) ⬝ᵥ (a - b)

/-- The face ids of periodic boundaries: 1, 2, 3 for the main and donor sides. -/
def axisOf : Int → Option (Fin 4)
  | -1 => some 1 | -4 => some 1
  | -2 => some 2 | -5 => some 2
  | -3 => some 3 | -6 => some 3
  | _ => none

end DNDSR.Per

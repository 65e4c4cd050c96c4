import Mathlib.Analysis.Calculus.Deriv.Basic
import Mathlib.Analysis.SpecialFunctions.Pow.Real
import Mathlib.Data.Fin.VecNotation

/-!
# The Euler equations in two dimensions
-/

namespace DNDSR.Vortex

/-- pressure of a perfect gas -/
noncomputable def pressure (gamma : ℝ) (w : Fin 4 → ℝ) : ℝ := (gamma - 1) * (w 3 - (w 1 ^ 2 + w 2 ^ 2) / (2 * w 0))

/-- fluxes along the two axes -/
noncomputable def fluxX (gamma : ℝ) (w : Fin 4 → ℝ) : Fin 4 → ℝ :=
  ![w 1, w 1 ^ 2 / w 0 + pressure gamma w, w 1 * w 2 / w 0, (w 3 + pressure gamma w) * w 1 / w 0]

noncomputable def fluxY (gamma : ℝ) (w : Fin 4 → ℝ) : Fin 4 → ℝ :=
  ![w 2, w 1 * w 2 / w 0, w 2 ^ 2 / w 0 + pressure gamma w, (w 3 + pressure gamma w) * w 2 / w 0]

/-- the field `U x y t` solves the Euler equations at a point: all derivatives exist and balance -/
def EulerAt (gamma : ℝ) (U : ℝ → ℝ → ℝ → Fin 4 → ℝ) (x y t : ℝ) : Prop :=
  ∀ i, ∃ a b c, HasDerivAt (fun s => U x y s i) a t ∧ HasDerivAt (fun s => fluxX gamma (U s y t) i) b x ∧
    HasDerivAt (fun s => fluxY gamma (U x s t) i) c y ∧ a + b + c = 0

end DNDSR.Vortex

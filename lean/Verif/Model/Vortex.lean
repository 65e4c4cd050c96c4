import Mathlib.Analysis.SpecialFunctions.Pow.Real
import Mathlib.Analysis.SpecialFunctions.Trigonometric.Basic
import Mathlib.Algebra.Order.Floor.Ring
import Mathlib.Data.Fin.VecNotation

/-!
# Fields with exact solutions (`src/Euler/SpecialFields.hpp`)

Real numbers; two dimensions, without turbulence: the vector has density, two momenta and energy.  In three dimensions the third momentum is zero.
-/

namespace DNDSR.Vortex

/-- Models `float_mod`, `src/DNDS/Defines.hpp:386-389`. -/
noncomputable def floatMod (a b : ℝ) : ℝ := a - (⌊a / b⌋ : ℝ) * b

/-- Models the part that the three functions share, `src/Euler/SpecialFields.hpp:22-40`, `58-76` and `94-112`: `xyc` is the center, `base` the uniform velocity. -/
noncomputable def state (gamma chi base xyc px py : ℝ) : Fin 4 → ℝ :=
  let r := Real.sqrt ((px - xyc) ^ 2 + (py - xyc) ^ 2)
  let dT := -(gamma - 1) / (8 * gamma * Real.pi ^ 2) * chi ^ 2 * Real.exp (1 - r ^ 2)
  let dux := chi / 2 / Real.pi * Real.exp ((1 - r ^ 2) / 2) * -(py - xyc)
  let duy := chi / 2 / Real.pi * Real.exp ((1 - r ^ 2) / 2) * (px - xyc)
  let T := dT + 1
  let ux := dux + base
  let uy := duy + base
  let S := 1
  let rho := (T / S) ^ (1 / (gamma - 1))
  let p := T * rho
  let E := 0.5 * (ux ^ 2 + uy ^ 2) * rho + p / (gamma - 1)
  ![rho, rho * ux, rho * uy, E]

/-- Models `IsentropicVortex10`, `src/Euler/SpecialFields.hpp:7-41`. -/
noncomputable def vortex10 (gamma chi x y t : ℝ) : Fin 4 → ℝ :=
  state gamma chi 1 5 (floatMod (x - t) 10) (floatMod (y - t) 10)

/-- Models `IsentropicVortex30`, `src/Euler/SpecialFields.hpp:43-77`. -/
noncomputable def vortex30 (gamma x y t : ℝ) : Fin 4 → ℝ :=
  state gamma 5 1 5 (floatMod (x - t + 10) 30 - 10) (floatMod (y - t + 10) 30 - 10)

/-- Models `IsentropicVortexCent`, `src/Euler/SpecialFields.hpp:79-113`. -/
noncomputable def vortexCent (gamma x y _t : ℝ) : Fin 4 → ℝ := state gamma 5 0 0 x y

end DNDSR.Vortex

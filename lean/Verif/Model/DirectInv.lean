import Mathlib.LinearAlgebra.Matrix.NonsingularInverse
import Mathlib.Data.Matrix.Diagonal

/-!
# Inversion of a diagonal block (`src/Euler/EulerJacobian.hpp:241-260`, `src/Euler/EulerJacobian.hpp:335-349`)
-/

namespace DNDSR.Direct

open Matrix

open Classical in
/-- Models `JacobianLocalLU::InvertDiag` and `JacobianLocalLDLT::InvertDiag`: the block is scaled by its diagonal, inverted, and
scaled back; a zero on the diagonal or a singular block aborts (`none`).  Exact arithmetic: `fullPivLu().isInvertible()` is
invertibility. -/
noncomputable def invertDiag {m : Nat} {K : Type} [Field K] (v : Matrix (Fin m) (Fin m) K) : Option (Matrix (Fin m) (Fin m) K) :=
  if ∀ i, v i i ≠ 0 then
    let preCon := diagonal (fun i => (v i i)⁻¹) * v
    if IsUnit preCon.det then some (preCon⁻¹ * diagonal (fun i => (v i i)⁻¹)) else none
  else none

end DNDSR.Direct

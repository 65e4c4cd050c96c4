import Verif.Model.Gas

/-!
# The viscous flux

Models `ViscousFlux_IdealGas`, `src/Euler/Gas.hpp:1044-1087`.  `G i j` is the derivative of velocity component `j` in direction `i`
(`diffVelo`), `gradRho` and `gradP` are columns 0 and `dim + 1` of `GradUPrim`.
-/

namespace DNDSR.Gas

variable {d : Nat}

/-- Entry of a matrix by numbers, for the entries the code names explicitly. -/
def entry (M : Fin d → Fin d → ℝ) (a b : Nat) : ℝ := if h : a < d ∧ b < d then M ⟨a, h.1⟩ ⟨b, h.2⟩ else 0

/-- Models `GradT`, `src/Euler/Gas.hpp:1056-1062`. -/
noncomputable def viscGradT (U : St ℝ d) (gradRho gradP n : Fin d → ℝ) (adiabatic : Bool) (gamma Cp : ℝ) : Fin d → ℝ :=
  let velo := U.c0⁻¹ • U.cv
  let vSqr := velo ⬝ᵥ velo
  let p := (gamma - 1) * (U.c4 - U.c0 * (1 / 2) * vSqr)
  let GradT := (gamma / ((gamma - 1) * Cp * U.c0 * U.c0)) • (U.c0 • gradP - p • gradRho)
  if adiabatic then GradT - (GradT ⬝ᵥ n) • n else GradT

/-- Models `vStress` at line 1064, `src/Euler/Gas.hpp:1064-1065`. -/
noncomputable def viscStress0 (G : Fin d → Fin d → ℝ) (mu : ℝ) (i j : Fin d) : ℝ :=
  (G i j + G j i) * mu + (if i = j then -2 / 3 * mu * ∑ k, G k k else 0)

/-- Models `O`, `src/Euler/Gas.hpp:1068-1069`. -/
noncomputable def viscRot (G : Fin d → Fin d → ℝ) (i j : Fin d) : ℝ :=
  let b := √(∑ i, ∑ j, G i j * G i j)
  (G j i - G i j) / (b + verySmall)

/-- Models `vStressQCRFix`, `src/Euler/Gas.hpp:1071-1080`: the upper triangle. -/
noncomputable def qcrFix (T O : Fin d → Fin d → ℝ) (i j : Fin d) : ℝ :=
  let t := entry T
  let o := entry O
  if i = j then ∑ k, T i k * O i k
  else if i.val = 0 ∧ j.val = 1 then
    o 0 1 * (t 1 1 - t 0 0) + (if d = 3 then o 1 2 * t 0 2 + o 0 2 * t 1 2 else 0)
  else if d = 3 ∧ i.val = 0 ∧ j.val = 2 then
    o 0 2 * (t 2 2 - t 0 0) + o 0 1 * t 2 1 + o 2 1 * t 0 1
  else if d = 3 ∧ i.val = 1 ∧ j.val = 2 then
    o 1 2 * (t 2 2 - t 1 1) + o 1 0 * t 2 0 + o 2 0 * t 1 0
  else 0

/-- Models `vStress` after the quadratic correction, `src/Euler/Gas.hpp:1064-1083`. -/
noncomputable def viscStress (G : Fin d → Fin d → ℝ) (mu mutRatio : ℝ) (qcr : Bool) (i j : Fin d) : ℝ :=
  let T := viscStress0 G mu
  if qcr then T i j - 3 / 10 * mutRatio * (qcrFix T (viscRot G) i j + qcrFix T (viscRot G) j i) else T i j

/-- Models `ViscousFlux_IdealGas`, `src/Euler/Gas.hpp:1044-1087`. -/
noncomputable def viscousFlux (U : St ℝ d) (G : Fin d → Fin d → ℝ) (gradRho gradP n : Fin d → ℝ) (adiabatic : Bool)
    (gamma mu mutRatio : ℝ) (qcr : Bool) (k Cp : ℝ) : St ℝ d :=
  let velo := U.c0⁻¹ • U.cv
  let GradT := viscGradT U gradRho gradP n adiabatic gamma Cp
  let T := viscStress G mu mutRatio qcr
  (0, fun i => ∑ j, T i j * n j, ∑ i, ((∑ j, T i j * velo j) + k * GradT i) * n i)

end DNDSR.Gas

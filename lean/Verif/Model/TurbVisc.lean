import Verif.Model.Basic
import Mathlib.Analysis.SpecialFunctions.Log.Basic
import Mathlib.Analysis.SpecialFunctions.Sqrt
import Mathlib.Analysis.SpecialFunctions.Pow.Real

/-!
# Viscosity of the gas and of turbulence (`src/Euler/EulerEvaluator.hpp:384-440`, `src/Euler/RANS_ke.hpp:17-128`)

Real numbers stand for floating point numbers, so that the checks for numbers that are not finite do not appear; division by zero is excluded by the hypotheses of
the theorems.  The gradient of a quantity has the direction as its first index.
-/

namespace DNDSR.Turb

open Finset

variable {d : Nat}

/-- the entries of `idealGasProperty` that viscosity needs -/
structure Props where
  muModel : Int
  muGas : ℝ
  TRef : ℝ
  CSutherland : ℝ

/-- Models `muEff`, `src/Euler/EulerEvaluator.hpp:384-409`. -/
noncomputable def muEff (g : Props) (rho T : ℝ) : Res ℝ :=
  if g.muModel = 0 then .ok g.muGas
  else if g.muModel = 1 then
    let TRel := T / g.TRef
    .ok (g.muGas * TRel * Real.sqrt TRel * (g.TRef + g.CSutherland) / (T + g.CSutherland))
  else if g.muModel = 2 then .ok (g.muGas * rho)
  else .abort

/-- Models `getMuTur` for the Spalart-Allmaras model, `src/Euler/EulerEvaluator.hpp:415-427`, with `USE_NS_SA_NEGATIVE_MODEL` (`src/DNDS/Experimentals.hpp:28`);
`nut` is the turbulent variable. -/
noncomputable def saMut (nut muRef muf : ℝ) : ℝ :=
  let chi0 := nut * muRef / muf
  let chi := if chi0 < 10 then 5 / 100 * Real.log (1 + Real.exp (20 * chi0)) else chi0
  let chi3 := chi ^ 3
  let fnu1 := chi3 / (chi3 + (71 / 10) ^ 3)
  muf * max (chi * fnu1) 0

/-- the conserved quantities of a mean state: density, momentum, and the two turbulent ones -/
structure St (d : Nat) where
  rho : ℝ
  mom : Fin d → ℝ
  k : ℝ
  e : ℝ

/-- their gradients -/
structure Gr (d : Nat) where
  rho : Fin d → ℝ
  mom : Fin d → Fin d → ℝ
  k : Fin d → ℝ
  e : Fin d → ℝ

/-- `diffU`, `src/Euler/RANS_ke.hpp:27-30` -/
noncomputable def veloGrad (u : St d) (g : Gr d) (i j : Fin d) : ℝ := (g.mom i j - g.rho i * (u.mom j / u.rho)) / u.rho

/-- `SS`, `src/Euler/RANS_ke.hpp:31` -/
noncomputable def strain (G : Fin d → Fin d → ℝ) (i j : Fin d) : ℝ := G i j + G j i - 2 / 3 * (∑ l, G l l) * (if i = j then 1 else 0)

/-- `verySmallReal_4`, the fourth root of `1e-200`, `src/Euler/RANS_ke.hpp:24` -/
noncomputable def vs4 : ℝ := 1 / 10 ^ 50

/-- `S`, `src/Euler/RANS_ke.hpp:36` -/
noncomputable def shear (G : Fin d → Fin d → ℝ) : ℝ := Real.sqrt ((∑ i, ∑ j, strain G i j ^ 2) / 2) + vs4

/-- Models `GetMut_RealizableKe`, `src/Euler/RANS_ke.hpp:17-51`, with `KE_LIMIT_MUT`. -/
noncomputable def keMut (u : St d) (g : Gr d) (muf : ℝ) : ℝ :=
  let k := u.k / u.rho + vs4
  let eps := u.e / u.rho + vs4
  let Ret := u.rho * k ^ 2 / (muf * eps) + 1 / 10 ^ 10
  let S := shear (veloGrad u g)
  let fmu := (1 - Real.exp (-(1 / 100) * Ret)) / (1 - Real.exp (-Real.sqrt Ret)) * max 1 (Real.sqrt (2 / Ret))
  let mut1 := 9 / 100 * fmu * u.rho * k ^ 2 / eps
  let mut2 := min mut1 (2 / 3 * u.rho * k / S)
  min mut2 (10 ^ 5 * muf)

/-- Models `GetVisFlux_RealizableKe`, `src/Euler/RANS_ke.hpp:53-63`; `gk` and `ge` are the gradients of the primitive variables. -/
noncomputable def keFlux (gk ge n : Fin d → ℝ) (muT muPhy : ℝ) : ℝ × ℝ :=
  ((∑ i, gk i * n i) * (muPhy + muT / 1), (∑ i, ge i * n i) * (muPhy + muT / (13 / 10)))

/-- Models `GetSource_RealizableKe`, `src/Euler/RANS_ke.hpp:65-128`: the sources of both turbulent quantities, or what stands for their
derivatives if `mode` is not 0.  The variable `epsilon` is made from the entry `I4 + 1`, as in `:88`. -/
noncomputable def keSource (mode : Int) (u : St d) (g : Gr d) (muf : ℝ) : ℝ × ℝ :=
  let G := veloGrad u g
  let k := max (u.k / u.rho) vs4
  let eps := max (u.k / u.rho) vs4
  let Ret := u.rho * k ^ 2 / (muf * eps) + vs4
  let S := shear G
  let fmu := (1 - Real.exp (-(1 / 100) * Ret)) / max (1 - Real.exp (-Real.sqrt Ret)) vs4 * max 1 (Real.sqrt (2 / Ret))
  let mut1 := 9 / 100 * fmu * u.rho * k ^ 2 / eps
  let mut2 := min mut1 (2 / 3 * u.rho * k / S)
  let Pk0 := -∑ i, ∑ j, ((if i = j then 1 else 0) * u.k * (2 / 3) - mut2 * strain G i j) * G i j
  let Pk := min Pk0 (1065 / 1000 * (9 / 100) * u.k ^ 2 / mut2)
  let zeta := Real.sqrt (Ret / 2)
  let Tt := k / eps * max 1 (1 / zeta) + 1 / 10 ^ 10
  let gK := fun i => (g.k i - 1 / u.rho * g.rho i * u.k) / u.rho
  let gE := fun i => (g.e i - 1 / u.rho * g.rho i * u.e) / u.rho
  let gTau := fun i => gK i / eps - k / eps ^ 2 * gE i
  let Psi := max 0 (∑ i, gK i * gTau i)
  let E := 3 / 10 * u.rho * Real.sqrt (eps * Tt) * Psi * max (Real.sqrt k) ((muf * eps / u.rho) ^ (1 / 4 : ℝ))
  if mode = 0 then (Pk - u.e, (144 / 100 * Pk - 192 / 100 * u.e + E) / Tt) else (0, 192 / 100 / Tt)

end DNDSR.Turb

import Verif.Model.TurbVisc
import Mathlib.Analysis.SpecialFunctions.Trigonometric.DerivHyp

/-!
# Viscosity of the two k-omega models (`src/Euler/RANS_ke.hpp:239-345,429-503`)

As in `Model/TurbVisc.lean`; the entry `e` of a state holds the density times the specific dissipation.  The sources are in `Model/TurbSource.lean`.
-/

namespace DNDSR.Turb

open Finset

variable {d : Nat}

/-- `OmegaMag`, `src/Euler/RANS_ke.hpp:259-260`: the norm of the rotation times the root of two -/
noncomputable def vorticity (G : Fin d → Fin d → ℝ) : ℝ := Real.sqrt (∑ i, ∑ j, ((G j i - G i j) * (1 / 2)) ^ 2) * Real.sqrt 2

/-- `F2`, `src/Euler/RANS_ke.hpp:266`; `dist` is the distance to the wall -/
noncomputable def sstF2 (k om nu dist : ℝ) : ℝ := Real.tanh (max (2 * Real.sqrt k / (9 / 100 * om * dist)) (500 * nu / (dist ^ 2 * om)) ^ 2)

/-- Models `GetMut_SST`, `src/Euler/RANS_ke.hpp:239-280`, with `KW_SST_LIMIT_MUT`. -/
noncomputable def sstMut (u : St d) (g : Gr d) (muf dist : ℝ) : ℝ :=
  let k := max (u.k / u.rho) vs4
  let om := max (u.e / u.rho) vs4
  let F2 := sstF2 k om (muf / u.rho) dist
  let m := 31 / 100 * k / max (vorticity (veloGrad u g) * F2) (31 / 100 * om) * u.rho
  min m (10 ^ 5 * muf)

/-- `F1`, `src/Euler/RANS_ke.hpp:315-319`; `cross` is the product of the gradients of both turbulent variables -/
noncomputable def sstF1 (rho k om nu dist cross : ℝ) : ℝ :=
  let CDKW := max (2 * rho * (856 / 1000) / om * cross) (1 / 10 ^ 10)
  Real.tanh (min (max (Real.sqrt k / (9 / 100 * om * dist)) (500 * nu / (dist ^ 2 * om))) (4 * rho * (856 / 1000) * k / (CDKW * dist ^ 2)) ^ 4)

/-- Models `GetVisFlux_SST`, `src/Euler/RANS_ke.hpp:282-345`; `gk` and `ge` are the gradients of the primitive variables. -/
noncomputable def sstFlux (u : St d) (gk ge n : Fin d → ℝ) (mutIn dist muf : ℝ) : ℝ × ℝ :=
  let k := max (u.k / u.rho) vs4
  let om := max (u.e / u.rho) vs4
  let F1 := sstF1 u.rho k om (muf / u.rho) dist (∑ i, gk i * ge i)
  let sigK := 85 / 100 * F1 + 1 * (1 - F1)
  let sigO := 5 / 10 * F1 + 856 / 1000 * (1 - F1)
  ((∑ i, gk i * n i) * (muf + mutIn * sigK), (∑ i, ge i * n i) * (muf + mutIn * sigO))

/-- Models `GetMut_KOWilcox`, `src/Euler/RANS_ke.hpp:429-464`, with `KW_WILCOX_VER == 1` and `KW_WILCOX_LIMIT_MUT`. -/
noncomputable def wilcoxMut (u : St d) (g : Gr d) (muf : ℝ) : ℝ :=
  let G := veloGrad u g
  let k := max (u.k / u.rho) (vs4 ^ 2)
  let om := max (u.e / u.rho) vs4
  let omT := max om (7 / 8 * Real.sqrt (5 / 10 * (∑ i, ∑ j, (G i j + G j i) ^ 2) / (9 / 100)))
  min (k / omT * u.rho) (10 ^ 5 * muf)

end DNDSR.Turb

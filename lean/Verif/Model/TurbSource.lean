import Verif.Model.TurbKOmega

/-!
# Sources of the two k-omega models (`src/Euler/RANS_ke.hpp:346-427,504-592`)

As in `Model/TurbKOmega.lean`.
-/

namespace DNDSR.Turb

open Finset

variable {d : Nat}

/-- `Pk`, `src/Euler/RANS_ke.hpp:394-395,563-564`: minus the product of the Reynolds stresses with the velocity gradient, for the viscosity `m` -/
noncomputable def rawProduction (uk m : ℝ) (G : Fin d → Fin d → ℝ) : ℝ := -∑ i, ∑ j, ((if i = j then 1 else 0) * uk * (2 / 3) - m * strain G i j) * G i j

/-- the gradient of a turbulent variable from that of its product with the density, `src/Euler/RANS_ke.hpp:373,533` -/
noncomputable def primGrad (u : St d) (g : Gr d) (q : ℝ) (gq : Fin d → ℝ) (i : Fin d) : ℝ := (gq i - 1 / u.rho * g.rho i * q) / u.rho

/-- `crossDiff`, `src/Euler/RANS_ke.hpp:556` -/
noncomputable def crossDiff (u : St d) (g : Gr d) : ℝ := ∑ i, primGrad u g u.k g.k i * primGrad u g u.e g.e i

/-- `fBeta`, `src/Euler/RANS_ke.hpp:547-548` -/
noncomputable def fBeta (G : Fin d → Fin d → ℝ) (om : ℝ) : ℝ :=
  let chi := |(∑ i, ∑ j, (∑ l, (G l i - G i l) * (G j l - G l j)) * (G i j + G j i)) * (125 / 1000) / (9 / 100 * om) ^ 3|
  (1 + 85 * chi) / (1 + 100 * chi)

/-- Models `GetSource_KOWilcox`, `src/Euler/RANS_ke.hpp:504-592`, with `KW_WILCOX_VER == 1` and both limits. -/
noncomputable def wilcoxSource (mode : Int) (u : St d) (g : Gr d) (muf : ℝ) : ℝ × ℝ :=
  let G := veloGrad u g
  let k := max (u.k / u.rho) (vs4 ^ 2)
  let om := max (u.e / u.rho) vs4
  let m := wilcoxMut u g muf
  let beta := fBeta G om * (708 / 10000)
  let sigD : ℝ := if crossDiff u g > 0 then 125 / 1000 else 0
  let Pk0 := rawProduction u.k m G
  let POmega := 13 / 25 * om / k * Pk0
  let Pk1 := max Pk0 (1 / 10 ^ 200)
  let Pk := min Pk1 (9 / 100 * u.rho * k * om * 20)
  if mode = 0 then (Pk - 9 / 100 * u.rho * k * om, POmega - beta * u.rho * om ^ 2 + sigD / om * crossDiff u g) else (9 / 100 * om, 2 * beta * om)

/-- `gamma1`, `src/Euler/RANS_ke.hpp:364` -/
noncomputable def gamma1 : ℝ := 75 / 1000 / (9 / 100) - 5 / 10 * (41 / 100) ^ 2 / Real.sqrt (9 / 100)

/-- `gamma2`, `src/Euler/RANS_ke.hpp:365`, which is not used -/
noncomputable def gamma2 : ℝ := 828 / 10000 / (9 / 100) - 856 / 1000 * (41 / 100) ^ 2 / Real.sqrt (9 / 100)

/-- Models `GetSource_SST`, `src/Euler/RANS_ke.hpp:346-427`, with `KW_SST_PROD_OMEGA_VERSION == 1` and both limits.  The second limit in `:399` starts again from `Pk`, and both terms
of `:402` have `gamma1`, as in the code. -/
noncomputable def sstSource (mode : Int) (u : St d) (g : Gr d) (muf dist : ℝ) : ℝ × ℝ :=
  let G := veloGrad u g
  let k := max (u.k / u.rho) vs4
  let om := max (u.e / u.rho) vs4
  let F1 := sstF1 u.rho k om (muf / u.rho) dist (crossDiff u g)
  let m := sstMut u g muf dist
  let Pk := rawProduction u.k m G
  let PkTilde := min Pk (20 * (9 / 100) * u.rho * k * om)
  let gammaC := gamma1 * F1 + gamma1 * (1 - F1)
  let beta := 75 / 1000 * F1 + 828 / 10000 * (1 - F1)
  let POmega := 5 / 10 * gammaC * u.rho * ∑ i, ∑ j, (G i j + G j i - (∑ l, (G l l + G l l)) / 3 * (if i = j then 1 else 0)) * (G i j + G j i)
  if mode = 0 then
    (PkTilde - 9 / 100 * u.rho * k * om, POmega - beta * u.rho * om ^ 2 + 2 * (1 - F1) * u.rho * (856 / 1000) / om * crossDiff u g)
  else (9 / 100 * om, 2 * beta * om)

end DNDSR.Turb

import Verif.Model.TurbKOmega

/-!
# Source of the Spalart-Allmaras model (`src/Euler/RANS_ke.hpp:594-711`)

As in `Model/TurbVisc.lean`, with `USE_NS_SA_NEGATIVE_MODEL` and `USE_ABS_VELO_IN_ROTATION`, under which the frame does not add to the rotation.  The entry `k` of a state holds the turbulent variable.
-/

namespace DNDSR.Turb

open Finset

variable {d : Nat}

/-- `cw1`, `src/Euler/RANS_ke.hpp:611` -/
noncomputable def saCw1 : ℝ := 1355 / 10000 / (41 / 100) ^ 2 + (1 + 622 / 1000) / (2 / 3)

/-- `Sbar`, `src/Euler/RANS_ke.hpp:618-620,639` -/
noncomputable def saSbar (chi nuh dist : ℝ) : ℝ :=
  let fnu1 := chi ^ 3 / (chi ^ 3 + (71 / 10) ^ 3)
  let fnu2 := 1 - chi / (1 + chi * fnu1)
  nuh / ((41 / 100) ^ 2 * dist ^ 2) * fnu2

/-- `Sh`, `src/Euler/RANS_ke.hpp:661-666` -/
noncomputable def saSh (S Sbar : ℝ) : ℝ :=
  if Sbar < -(7 / 10) * S then S + S * ((7 / 10) ^ 2 * S + 9 / 10 * Sbar) / ((9 / 10 - 2 * (7 / 10)) * S - Sbar) else S + Sbar

/-- `fw`, `src/Euler/RANS_ke.hpp:668-670`, from `Sh` -/
noncomputable def saFw (nuh Sh dist : ℝ) : ℝ :=
  let r := min (nuh / (Sh * (41 / 100 * dist) ^ 2 + 1 / 10 ^ 200)) 10
  let g := r + 3 / 10 * (r ^ 6 - r)
  g * ((1 + 2 ^ 6) / (g ^ 6 + 2 ^ 6)) ^ (1 / 6 : ℝ)

/-- `ft2`, `src/Euler/RANS_ke.hpp:672` -/
noncomputable def saFt2 (chi : ℝ) : ℝ := 12 / 10 * Real.exp (-(5 / 10) * chi ^ 2)

/-- `P`, `src/Euler/RANS_ke.hpp:683-703`; `S` and `SS` are the sizes of rotation and strain -/
noncomputable def saP (rotCor : Bool) (neg : Bool) (chi nuh S SS Sh : ℝ) : ℝ :=
  if neg then
    if rotCor then 1355 / 10000 * (1 - 12 / 10) * |S + 1 * min 0 (SS - S)| * nuh else 1355 / 10000 * (1 - 12 / 10) * S * nuh
  else if rotCor then 1355 / 10000 * (1 - saFt2 chi) * (Sh + 1 * min 0 (SS - S)) * nuh else 1355 / 10000 * (1 - saFt2 chi) * Sh * nuh

/-- `D`, `src/Euler/RANS_ke.hpp:682,699` -/
noncomputable def saD (neg : Bool) (chi nuh Sh dist : ℝ) : ℝ :=
  if neg then -saCw1 * (nuh / dist) ^ 2 else (saCw1 * saFw nuh Sh dist - 1355 / 10000 / (41 / 100) ^ 2 * saFt2 chi) * (nuh / dist) ^ 2

/-- `fn`, `src/Euler/RANS_ke.hpp:692-698` -/
noncomputable def saFn (neg : Bool) (chi : ℝ) : ℝ := if neg then (16 + chi ^ 3) / (16 - chi ^ 3) else 1

/-- `SS`, `src/Euler/RANS_ke.hpp:638` -/
noncomputable def saStrain (G : Fin d → Fin d → ℝ) : ℝ := Real.sqrt (∑ i, ∑ j, (G i j + G j i) ^ 2)

/-- Models `GetSource_SA`, `src/Euler/RANS_ke.hpp:594-711`. -/
noncomputable def saSource (mode : Int) (rotCor : Bool) (u : St d) (g : Gr d) (muRef muf dist : ℝ) : ℝ :=
  let nuh := u.k * muRef / u.rho
  let chi := u.k * muRef / muf
  let G := veloGrad u g
  let diffNu := fun i => (g.k i * muRef - nuh * g.rho i) / u.rho
  let S := vorticity G
  let Sh := saSh S (saSbar chi nuh dist)
  let neg := decide (u.k < 0)
  let P := saP rotCor neg chi nuh S (saStrain G) Sh
  let D := saD neg chi nuh Sh dist
  if mode = 0 then
    u.rho * (P - D + (∑ i, diffNu i ^ 2) * (622 / 1000) / (2 / 3)) / muRef -
      (u.k * saFn neg chi * muRef + muf) / (u.rho * (2 / 3)) * (∑ i, g.rho i * diffNu i) / muRef
  else -min (u.rho * (P * 0 - D * 2) / muRef / (u.k + 1 / 10 ^ 200)) (-(1 / 10 ^ 200))

end DNDSR.Turb

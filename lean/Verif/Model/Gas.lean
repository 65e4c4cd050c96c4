import Verif.Model.Basic
import Mathlib.Data.Matrix.Mul
import Mathlib.Analysis.Real.Sqrt
import Mathlib.Algebra.BigOperators.Group.Finset.Basic

/-!
# Ideal gas relations, eigenvectors and inviscid fluxes

Models `src/Euler/Gas.hpp`.  Numbers are exact (a field `K`, or the reals where square roots occur).  `dim` is `d`, any natural
number.  The first `dim + 2` components of a state are a triple: density, momentum, total energy (`U(0)`, `U(1..dim)`,
`U(dim + 1)`), and for a primitive state density, velocity, pressure; components after those are a further vector.  A division by
zero gives zero here and infinity or NaN in the code, a square root of a negative number likewise: the theorems have hypotheses
that exclude both.
-/

namespace DNDSR.Gas

/-- The first `dim + 2` components of a state, of a flux or of an increment. -/
abbrev St (K : Type) (d : Nat) := K × (Fin d → K) × K

section Field

variable {K : Type} [Field K] {d m : Nat}

/-- component 0 -/
def St.c0 (U : St K d) : K := U.1
/-- components 1 to `dim` -/
def St.cv (U : St K d) : Fin d → K := U.2.1
/-- component `dim + 1` -/
def St.c4 (U : St K d) : K := U.2.2

/-- Models `IdealGasThermal`, `src/Euler/Gas.hpp:103-109`: pressure, squared sound speed, enthalpy. -/
def thermal (E rho vSqr gamma : K) : K × K × K :=
  let p := (gamma - 1) * (E - rho * (1 / 2) * vSqr)
  (p, gamma * p / rho, (E + p) / rho)

/-- Models `IdealGasThermalConservative2Primitive`, `src/Euler/Gas.hpp:111-123`; the assertion is in `cons2prim`. -/
def cons2primRaw (gamma : K) (U : St K d) (ext : Fin m → K) : St K d × (Fin m → K) :=
  let prim := (U.c0⁻¹ • U, U.c0⁻¹ • ext)
  let vSqr := (U.c0⁻¹ • U.cv) ⬝ᵥ (U.c0⁻¹ • U.cv)
  let rho := U.c0
  let E := U.c4
  let p := (gamma - 1) * (E - rho * (1 / 2) * vSqr)
  ((rho, prim.1.cv, p), prim.2)

/-- Models `IdealGasThermalPrimitive2Conservative`, `src/Euler/Gas.hpp:125-137`; the assertion is in `prim2cons`. -/
def prim2consRaw (gamma : K) (prim : St K d) (ext : Fin m → K) : St K d × (Fin m → K) :=
  let U := (prim.c0 • prim, prim.c0 • ext)
  let vSqr := prim.cv ⬝ᵥ prim.cv
  let rho := prim.c0
  let p := prim.c4
  let E := p / (gamma - 1) + rho * (1 / 2) * vSqr
  ((rho, U.1.cv, E), U.2)

/-- Models `GasInviscidFlux`, `src/Euler/Gas.hpp:158-165`; `nx` is the first axis (the code uses component 0 of `velo`, `vg` and
of the momentum). -/
def fluxX (U : St K (m + 1)) (velo vg : Fin (m + 1) → K) (p : K) : St K (m + 1) :=
  let F := (velo 0 - vg 0) • U
  (F.c0, fun i => if i = 0 then F.cv i + p else F.cv i, F.c4 + velo 0 * p)

/-- Models `GasInviscidFlux_XY`, `src/Euler/Gas.hpp:167-174`. -/
def fluxXY (U : St K d) (velo vg n : Fin d → K) (p : K) : St K d :=
  let F := ((velo - vg) ⬝ᵥ n) • U
  (F.c0, F.cv + p • n, F.c4 + velo ⬝ᵥ n * p)

/-- Models `IdealGasUIncrement`, `src/Euler/Gas.hpp:196-205`: `dVelo` and `dp`. -/
def uIncrement (U dU : St K d) (velo : Fin d → K) (gamma : K) : (Fin d → K) × K :=
  let dVelo := U.c0⁻¹ • (dU.cv - dU.c0 • U.c0⁻¹ • U.cv)
  (dVelo, (gamma - 1) * (dU.c4 - 1 / 2 * (dU.cv ⬝ᵥ velo + U.cv ⬝ᵥ dVelo)))

/-- Models `GasInviscidFluxFacialIncrement`, `src/Euler/Gas.hpp:207-222`. -/
def fluxIncrement (U dU : St K d) (n velo dVelo vg : Fin d → K) (dp p : K) : St K d :=
  let vn := velo ⬝ᵥ n
  let dvn := dVelo ⬝ᵥ n
  let F : St K d := (dU.cv ⬝ᵥ n, vn • dU.cv + dvn • U.cv + dp • n, (dU.c4 + dp) * vn + (U.c4 + p) * dvn)
  F - (vg ⬝ᵥ n) • dU

/-- Models `GradientCons2Prim_IdealGas`, `src/Euler/Gas.hpp:1094-1115`: one row (one space direction) of `GradU` and of the
result, `g` for the first `dim + 2` columns and `ge` for the remaining ones.  (The rows are computed independently of each other.) -/
def gradCons2Prim (gamma : K) (U : St K d) (ext : Fin m → K) (g : St K d) (ge : Fin m → K) : St K d × (Fin m → K) :=
  let velo := U.c0⁻¹ • U.cv
  let gv := (1 / (U.c0 * U.c0)) • (U.c0 • g.cv - g.c0 • U.cv)
  let gp := (gamma - 1) * (g.c4 - 1 / 2 * (g.cv ⬝ᵥ velo + gv ⬝ᵥ U.cv))
  ((g.c0, gv, gp), U.c0⁻¹ • (ge - (g.c0 / U.c0) • ext))

/-- Models `GetGradVelo`, `src/Euler/Gas.hpp:1117-1127`: one row. -/
def gradVelo (U g : St K d) : Fin d → K :=
  (1 / (U.c0 * U.c0)) • (U.c0 • g.cv - g.c0 • U.cv)

/-- Models `EulerGasRightEigenVector`, `src/Euler/Gas.hpp:47-68`: entry `(i, j)` of the matrix with `dim + 2` rows and columns.
Entries written twice have the value written last. -/
def rightEig (d : Nat) (velo : Nat → K) (vSqr H a : K) (i j : Nat) : K :=
  if i = 0 then (if j = 0 ∨ j = 1 ∨ j = d + 1 then 1 else 0)
  else if i = d + 1 then
    (if j = 0 then H - velo 0 * a
     else if j = d + 1 then H + velo 0 * a
     else if j = 1 then 1 / 2 * vSqr
     else velo (j - 1))
  else if j = 0 then (if i = 1 then velo (i - 1) - a else velo (i - 1))
  else if j = d + 1 then (if i = 1 then velo (i - 1) + a else velo (i - 1))
  else if j = 1 then velo (i - 1)
  else if i = j then 1 else 0

/-- Models `EulerGasLeftEigenVector`, `src/Euler/Gas.hpp:74-101`. -/
def leftEig (d : Nat) (velo : Nat → K) (H a gamma : K) (i j : Nat) : K :=
  let gammaBar := gamma - 1
  let LeV : K :=
    if i = 0 then
      (if j = 0 then H + a / gammaBar * (velo 0 - a)
       else if j = 1 then -velo 0 - a / gammaBar
       else if j = d + 1 then 1
       else -velo (j - 1))
    else if i = 1 then
      (if j = 0 then -2 * H + 4 / gammaBar * (a * a)
       else if j = d + 1 then -2
       else velo (j - 1) * 2)
    else if i = d + 1 then
      (if j = 0 then H - a / gammaBar * (velo 0 + a)
       else if j = 1 then -velo 0 + a / gammaBar
       else if j = d + 1 then 1
       else -velo (j - 1))
    else
      (if j = 0 then velo (i - 1) * (-2 * (a * a) / gammaBar)
       else if i = j then 2 * (a * a) / gammaBar
       else 0)
  LeV * (gammaBar / (2 * a * a))

end Field

/-- Models the conversions with their assertion `rho > 0`, `src/Euler/Gas.hpp:122` and `:136`. -/
def cons2prim {K : Type} [Field K] [LinearOrder K] {d m : Nat} (gamma : K) (U : St K d) (ext : Fin m → K) :
    Res (St K d × (Fin m → K)) :=
  if 0 < U.c0 then .ok (cons2primRaw gamma U ext) else .abort

/-- See `cons2prim`. -/
def prim2cons {K : Type} [Field K] [LinearOrder K] {d m : Nat} (gamma : K) (prim : St K d) (ext : Fin m → K) :
    Res (St K d × (Fin m → K)) :=
  if 0 < prim.c0 then .ok (prim2consRaw gamma prim ext) else .abort

section Real

variable {d : Nat}

/-- Models `verySmallReal`, `src/DNDS/Defines.hpp:154`. -/
noncomputable def verySmall : ℝ := 1 / 10 ^ 200
/-- Models `smallReal`, `src/DNDS/Defines.hpp:155`. -/
noncomputable def small : ℝ := 1 / 10 ^ 10

/-- Models `signTol`, `src/DNDS/Defines.hpp:350-353`. -/
noncomputable def signTol (a tol : ℝ) : ℝ := if a > tol then 1 else if a < -tol then -1 else 0
/-- Models `signP`, `src/DNDS/Defines.hpp:355-358`. -/
noncomputable def signP (a : ℝ) : ℝ := if a ≥ 0 then 1 else -1

/-- Velocity, pressure, squared sound speed and enthalpy of a conservative state: the first lines of each Riemann solver,
`src/Euler/Gas.hpp:271-285`, `:404-418`, `:534-548`. -/
structure Side (d : Nat) where
  velo : Fin d → ℝ
  p : ℝ
  asqr : ℝ
  H : ℝ

/-- See `Side`. -/
noncomputable def side (gamma : ℝ) (U : St ℝ d) : Side d :=
  let velo := U.c0⁻¹ • U.cv
  let t := thermal U.c4 U.c0 (velo ⬝ᵥ velo) gamma
  { velo := velo, p := t.1, asqr := t.2.1, H := t.2.2 }

/-- The Roe average. -/
structure Avg (d : Nat) where
  velo : Fin d → ℝ
  vsqr : ℝ
  H : ℝ
  asqr : ℝ
  rho : ℝ

/-- Models `GetRoeAverage`, `src/Euler/Gas.hpp:693-715`, and the same lines of the Riemann solvers, `:293-300`, `:426-433`,
`:556-563`. -/
noncomputable def roeAverage (gamma : ℝ) (UL UR : St ℝ d) : Avg d :=
  let L := side gamma UL
  let R := side gamma UR
  let sL := √UL.c0
  let sR := √UR.c0
  let velo := (sL + sR)⁻¹ • (sL • L.velo + sR • R.velo)
  let vsqr := velo ⬝ᵥ velo
  let H := (sL * L.H + sR * R.H) / (sL + sR)
  { velo := velo, vsqr := vsqr, H := H, asqr := (gamma - 1) * (H - 1 / 2 * vsqr), rho := sL * sR }

/-- The three wave speeds a Riemann solver leaves in `lam0`, `lam123`, `lam4`. -/
structure Lam where
  l0 : ℝ
  l123 : ℝ
  l4 : ℝ

/-- Models the eigenvalue choice of `RoeFlux_IdealGas_HartenYee`, `src/Euler/Gas.hpp:569-658`, for `eigScheme` 0, 1, 3, 4, 5.
`u` is `veloRoe0`, `uL`, `uR` are `veloLm0`, `veloRm0`, `aL`, `aR` the square roots of `asqrLm`, `asqrRm`, `speed` the square root
of `vsqrRoe`. -/
noncomputable def roeLam (scheme : Nat) (speed u a uL uR aL aR dLambda : ℝ) : Lam :=
  let base : Lam := ⟨|u - a|, |u|, |u + a|⟩
  if scheme = 0 then
    let th := max (5 / 100 * (speed + a)) dLambda
    { l0 := if base.l0 < th then (base.l0 * base.l0 + th * th) / (2 * th) else base.l0,
      l123 := base.l123,
      l4 := if base.l4 < th then (base.l4 * base.l4 + th * th) / (2 * th) else base.l4 }
  else if scheme = 1 then
    let vL := signTol uL (aL * small) * max |uL| (aL * (2 / 10))
    let vR := signTol uR (aR * small) * max |uR| (aR * (2 / 10))
    ⟨max |vL - aL| |vR - aR|, max |vL| |vR|, max |vL + aL| |vR + aR|⟩
  else if scheme = 3 then
    let aS := min (|u| / (2 / 10)) a
    ⟨|u - aS|, base.l123, |u + aS|⟩
  else if scheme = 4 then
    let uS := signTol u (a * small) * max (a * (2 / 10)) |u|
    ⟨|uS - a|, |uS|, |uS + a|⟩
  else
    let bL := min aL (|uL| / (2 / 10))
    let bR := min aR (|uR| / (2 / 10))
    ⟨max |uL - bL| |uR - bR|, max |uL| |uR|, max |uL + bL| |uR + bR|⟩

/-- The wave strengths, `src/Euler/Gas.hpp:660-675` (and `:727-737`, `:322-334`). -/
structure Waves (d : Nat) where
  a0 : ℝ
  a1 : ℝ
  aT : Fin d → ℝ
  a4 : ℝ

/-- See `Waves`; `vN` is `veloRoeN`. -/
noncomputable def waves (gamma : ℝ) (A : Avg d) (a vN : ℝ) (n : Fin d → ℝ) (inc : St ℝ d) : Waves d :=
  let incN := inc.cv ⬝ᵥ n
  let aV := inc.cv - inc.c0 • A.velo
  let aT := aV - (aV ⬝ᵥ n) • n
  let inc4b := inc.c4 - aT ⬝ᵥ A.velo
  let a1 := (gamma - 1) / A.asqr * (inc.c0 * (A.H - vN * vN) + vN * incN - inc4b)
  let a0 := (inc.c0 * (vN + a) - incN - a * a1) / (2 * a)
  { a0 := a0, a1 := a1, aT := aT, a4 := inc.c0 - (a0 + a1) }

/-- Models the sum of the scaled waves, `src/Euler/Gas.hpp:677-690`, and `RoeFluxIncFDiff`, `:717-751` (which adds it to `incF`). -/
noncomputable def waveSum (A : Avg d) (a vN : ℝ) (n : Fin d → ℝ) (l : Lam) (w : Waves d) : St ℝ d :=
  let a0 := w.a0 * l.l0
  let a1 := w.a1 * l.l123
  let aT := l.l123 • w.aT
  let a4 := w.a4 * l.l4
  (a0 + a1 + a4,
   a0 • (A.velo - a • n) + a4 • (A.velo + a • n) + a1 • A.velo + aT,
   (A.H - vN * a) * a0 + 1 / 2 * A.vsqr * a1 + (A.H + vN * a) * a4 + aT ⬝ᵥ A.velo)

/-- Models `RoeFluxIncFDiff`, `src/Euler/Gas.hpp:717-751`. -/
noncomputable def roeIncF (gamma : ℝ) (inc : St ℝ d) (n : Fin d → ℝ) (A : Avg d) (a : ℝ) (l : Lam) (incF : St ℝ d) : St ℝ d :=
  incF + waveSum A a (A.velo ⬝ᵥ n) n l (waves gamma A a (A.velo ⬝ᵥ n) n inc)

/-- Models the flux of one side, `GasInviscidFlux_XY` applied to a state, `src/Euler/Gas.hpp:302-304`. -/
noncomputable def physFlux (gamma : ℝ) (U : St ℝ d) (vg n : Fin d → ℝ) : St ℝ d :=
  fluxXY U (side gamma U).velo vg n (side gamma U).p

/-- The wave speeds `RoeFlux_IdealGas_HartenYee` chooses, `src/Euler/Gas.hpp:569-658`, all schemes; `pick` is `roeLam`, or
`roeLamBatch` for the batched solver. -/
noncomputable def roeSpeeds (pick : Nat → ℝ → ℝ → ℝ → ℝ → ℝ → ℝ → ℝ → ℝ → Lam) (scheme : Nat) (gamma : ℝ) (ULm URm : St ℝ d)
    (vg n : Fin d → ℝ) (dLambda : ℝ) : Lam :=
  let Lm := side gamma ULm
  let Rm := side gamma URm
  let A := roeAverage gamma ULm URm
  let u := A.velo ⬝ᵥ n - vg ⬝ᵥ n
  let uL := (Lm.velo - vg) ⬝ᵥ n
  let uR := (Rm.velo - vg) ⬝ᵥ n
  if scheme = 2 then
    let lam := max (|uL| + √Lm.asqr) (|uR| + √Rm.asqr)
    ⟨lam, lam, lam⟩
  else pick scheme (√A.vsqr) u (√A.asqr) uL uR (√Lm.asqr) (√Rm.asqr) dLambda

/-- The flux `RoeFlux_IdealGas_HartenYee` assembles, `src/Euler/Gas.hpp:602-604` and `:660-690`; `vN` is `veloRoeN`. -/
noncomputable def roeCombine (scheme : Nat) (gamma : ℝ) (UL UR : St ℝ d) (vg n : Fin d → ℝ) (A : Avg d) (vN : ℝ) (l : Lam) : St ℝ d :=
  let FL := physFlux gamma UL vg n
  let FR := physFlux gamma UR vg n
  if scheme = 2 then (1 / 2 : ℝ) • (FL + FR) - (1 / 2 * l.l0) • (UR - UL)
  else (1 / 2 : ℝ) • (FL + FR) - (1 / 2 : ℝ) • waveSum A (√A.asqr) vN n l (waves gamma A (√A.asqr) vN n (UR - UL))

/-- Models `RoeFlux_IdealGas_HartenYee`, `src/Euler/Gas.hpp:513-691`; the second component of the result is what is left in
`lam0`, `lam123`, `lam4`. -/
noncomputable def roeFlux (scheme : Nat) (gamma : ℝ) (UL UR ULm URm : St ℝ d) (vg n : Fin d → ℝ) (dLambda : ℝ) :
    Res (St ℝ d × Lam) :=
  if ¬ (0 < UL.c0 ∧ 0 < UR.c0) then .abort
  else if ¬ 0 < (roeAverage gamma ULm URm).asqr then .abort
  else if 5 < scheme then .abort
  else .ok (roeCombine scheme gamma UL UR vg n (roeAverage gamma ULm URm) ((roeAverage gamma ULm URm).velo ⬝ᵥ n)
    (roeSpeeds roeLam scheme gamma ULm URm vg n dLambda), roeSpeeds roeLam scheme gamma ULm URm vg n dLambda)

/-- The flux and wave speeds `HLLEPFlux_IdealGas` computes, `src/Euler/Gas.hpp:306-383`; `v1` is `type == 1`. -/
noncomputable def hllepCombine (v1 : Bool) (gamma : ℝ) (UL UR ULm URm : St ℝ d) (vg n : Fin d → ℝ) : St ℝ d × Lam :=
  let L := side gamma UL
  let R := side gamma UR
  let Lm := side gamma ULm
  let Rm := side gamma URm
  let A := roeAverage gamma ULm URm
  let FL := physFlux gamma UL vg n
  let FR := physFlux gamma UR vg n
  let a := √A.asqr
  let u := A.velo ⬝ᵥ n - vg ⬝ᵥ n
  let lam0 := |u - a|
  let lam4 := |u + a|
  let uL := (Lm.velo - vg) ⬝ᵥ n
  let uR := (Rm.velo - vg) ⬝ᵥ n
  let w := waves gamma A a (A.velo ⬝ᵥ n) n (UR - UL)
  let SL := min lam0 (uL - √L.asqr)
  let SR := max lam4 (uR + √R.asqr)
  let dfix := a / (a + |u|)
  let SP := max SR 0
  let SM := min SL 0
  if v1 = false then
    let ReV1 : St ℝ d := (1, A.velo, A.vsqr * (1 / 2))
    let div := SP - SM + signP (SP - SM) * verySmall
    (div⁻¹ • (SP • FL - SM • FR) + (SP * SM / div) • (UR - UL - (dfix * w.a1) • ReV1), ⟨lam0, |u|, lam4⟩)
  else
    let delta1 := a / (|u| + a + verySmall)
    let l : Lam :=
      ⟨((SP + SM) * (u - a) - 2 * (1 - 0) * (SP * SM)) / (SP - SM),
       ((SP + SM) * u - 2 * (1 - delta1) * (SP * SM)) / (SP - SM),
       ((SP + SM) * (u + a) - 2 * (1 - 0) * (SP * SM)) / (SP - SM)⟩
    ((1 / 2 : ℝ) • (FL + FR) - (1 / 2 : ℝ) • waveSum A a (A.velo ⬝ᵥ n) n l w, l)

/-- Models `HLLEPFlux_IdealGas`, `src/Euler/Gas.hpp:255-384`. -/
noncomputable def hllepFlux (v1 : Bool) (gamma : ℝ) (UL UR ULm URm : St ℝ d) (vg n : Fin d → ℝ) : Res (St ℝ d × Lam) :=
  if ¬ (0 < UL.c0 ∧ 0 < UR.c0) then .abort
  else if ¬ 0 < (roeAverage gamma ULm URm).asqr then .abort
  else .ok (hllepCombine v1 gamma UL UR ULm URm vg n)

/-- Models the eigenvalue choice of `RoeFlux_IdealGas_HartenYee_Batch`, `src/Euler/Gas.hpp:823-897`: that of the single-point
solver except for `eigScheme` 1. -/
noncomputable def roeLamBatch (scheme : Nat) (speed u a uL uR aL aR dLambda : ℝ) : Lam :=
  if scheme = 1 then ⟨max |uL - aL| |uR - aR|, max |uL| |uR|, max |uL + aL| |uR + aR|⟩
  else roeLam scheme speed u a uL uR aL aR dLambda

/-- One point of a batch: left state, right state, mesh velocity, normal. -/
structure Pt (d : Nat) where
  UL : St ℝ d
  UR : St ℝ d
  vg : Fin d → ℝ
  n : Fin d → ℝ

/-- Models `RoeFlux_IdealGas_HartenYee_Batch`, `src/Euler/Gas.hpp:753-931`; the columns of the batch are a list.  The average
velocity is taken along the mean normal `nm`, the increments along the normal of the point. -/
noncomputable def roeFluxBatch (scheme : Nat) (gamma : ℝ) (pts : List (Pt d)) (ULm URm : St ℝ d) (vgm nm : Fin d → ℝ) (dLambda : ℝ) :
    Res (List (St ℝ d) × Lam) :=
  open Classical in
  if ¬ (∀ q ∈ pts, 0 < q.UL.c0 ∧ 0 < q.UR.c0) then .abort
  else if ¬ 0 < (roeAverage gamma ULm URm).asqr then .abort
  else if 5 < scheme then .abort
  else .ok (pts.map fun q => roeCombine scheme gamma q.UL q.UR q.vg q.n (roeAverage gamma ULm URm)
      ((roeAverage gamma ULm URm).velo ⬝ᵥ nm) (roeSpeeds roeLamBatch scheme gamma ULm URm vgm nm dLambda),
    roeSpeeds roeLamBatch scheme gamma ULm URm vgm nm dLambda)

/-- Models the lambda `HLLCq`, `src/Euler/Gas.hpp:455-461`. -/
noncomputable def hllcQ (gamma p pS : ℝ) : ℝ :=
  if pS ≤ p then 1 else √(1 + (gamma + 1) / 2 / gamma * (pS / p - 1))

/-- The wave speeds `SL`, `SR` of `HLLCFlux_IdealGas_HartenYee`, `src/Euler/Gas.hpp:462-466`. -/
noncomputable def hllcSpeeds (gamma : ℝ) (ULm URm : St ℝ d) (vg n : Fin d → ℝ) : ℝ × ℝ :=
  let Lm := side gamma ULm
  let Rm := side gamma URm
  let A := roeAverage gamma ULm URm
  let uL := (Lm.velo - vg) ⬝ᵥ n
  let uR := (Rm.velo - vg) ⬝ᵥ n
  let pS := max 0 (1 / 2 * (Lm.p + Rm.p) - 1 / 2 * (uL - uR) * A.rho * √A.asqr)
  (uL - √Lm.asqr * hllcQ gamma Lm.p pS, uR + √Rm.asqr * hllcQ gamma Rm.p pS)

/-- The speed `SS` of the contact, `src/Euler/Gas.hpp:485-491`; `uL`, `uR` are `veloLm0`, `veloRm0`. -/
noncomputable def hllcContact (gamma : ℝ) (UL UR : St ℝ d) (vg n : Fin d → ℝ) (SL SR uL uR : ℝ) : ℝ :=
  let div := UL.c0 * (SL - uL) - UR.c0 * (SR - uR)
  if |div| > verySmall then
    ((side gamma UR).p - (side gamma UL).p + (UL.cv ⬝ᵥ n - (vg ⬝ᵥ n) * UL.c0) * (SL - uL) -
      (UR.cv ⬝ᵥ n - (vg ⬝ᵥ n) * UR.c0) * (SR - uR)) / div
  else 0

/-- The flux behind one wave, `src/Euler/Gas.hpp:497-509`: `S` is `SL` or `SR`, `u` is `veloLm0` or `veloRm0`. -/
noncomputable def hllcBehind (gamma : ℝ) (U : St ℝ d) (vg n : Fin d → ℝ) (S SS u : ℝ) : St ℝ d :=
  let F := physFlux gamma U vg n
  if |S - SS| < verySmall then F
  else (S - SS)⁻¹ • (SS • (S • U - F) + (((side gamma U).p + U.c0 * (S - u) * (SS - u)) * S) • ((0, n, SS) : St ℝ d))

/-- The flux `HLLCFlux_IdealGas_HartenYee` selects, `src/Euler/Gas.hpp:475-510`. -/
noncomputable def hllcSelect (gamma : ℝ) (UL UR : St ℝ d) (vg n : Fin d → ℝ) (SL SR uL uR : ℝ) : St ℝ d :=
  if 0 ≤ SL then physFlux gamma UL vg n
  else if SR ≤ 0 then physFlux gamma UR vg n
  else
    let SS := hllcContact gamma UL UR vg n SL SR uL uR
    if SS ≥ 0 then hllcBehind gamma UL vg n SL SS uL else hllcBehind gamma UR vg n SR SS uR

/-- Models `HLLCFlux_IdealGas_HartenYee`, `src/Euler/Gas.hpp:386-511`. -/
noncomputable def hllcFlux (gamma : ℝ) (UL UR ULm URm : St ℝ d) (vg n : Fin d → ℝ) : Res (St ℝ d × Lam) :=
  if ¬ (0 < UL.c0 ∧ 0 < UR.c0) then .abort
  else if ¬ 0 < (roeAverage gamma ULm URm).asqr then .abort
  else
    let A := roeAverage gamma ULm URm
    let u := A.velo ⬝ᵥ n - vg ⬝ᵥ n
    .ok (hllcSelect gamma UL UR vg n (hllcSpeeds gamma ULm URm vg n).1 (hllcSpeeds gamma ULm URm vg n).2
        (((side gamma ULm).velo - vg) ⬝ᵥ n) (((side gamma URm).velo - vg) ⬝ᵥ n),
      ⟨|u - √A.asqr|, |u|, |u + √A.asqr|⟩)

/-- Models `RiemannSolverType`, `src/Euler/Gas.hpp:14-26`. -/
inductive Solver
  | unknown | roe | hllc | hllep | hllepV1 | roeM1 | roeM2 | roeM3 | roeM4 | roeM5
  deriving DecidableEq

/-- Models `InviscidFlux_IdealGas_Dispatcher`, `src/Euler/Gas.hpp:933-986`. -/
noncomputable def flux (s : Solver) (gamma : ℝ) (UL UR ULm URm : St ℝ d) (vg n : Fin d → ℝ) (dLambda : ℝ) : Res (St ℝ d × Lam) :=
  match s with
  | .roe => roeFlux 0 gamma UL UR ULm URm vg n dLambda
  | .roeM1 => roeFlux 1 gamma UL UR ULm URm vg n dLambda
  | .roeM2 => roeFlux 2 gamma UL UR ULm URm vg n dLambda
  | .roeM3 => roeFlux 3 gamma UL UR ULm URm vg n dLambda
  | .roeM4 => roeFlux 4 gamma UL UR ULm URm vg n dLambda
  | .roeM5 => roeFlux 5 gamma UL UR ULm URm vg n dLambda
  | .hllep => hllepFlux false gamma UL UR ULm URm vg n
  | .hllepV1 => hllepFlux true gamma UL UR ULm URm vg n
  | .hllc => hllcFlux gamma UL UR ULm URm vg n
  | .unknown => .abort

end Real

end DNDSR.Gas

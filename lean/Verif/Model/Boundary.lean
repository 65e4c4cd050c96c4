import Verif.Model.Basic
import Verif.Model.Gas
import Mathlib.Analysis.SpecialFunctions.Pow.Real
import Mathlib.Data.Matrix.Mul

/-!
# Boundary values (`EulerEvaluator::generateBoundaryValue`, `src/Euler/EulerEvaluator_EvaluateDt.hxx:1476-1995`)

Real numbers stand for floating point numbers.  The state is density, momentum and energy, and `m` turbulence variables.
The boundary types that belong to single test cases (`BCSpecial` other than the far field: double Mach reflection,
Rayleigh-Taylor, isentropic vortex, 2D Riemann, Noh, `:1600-1849`) are not modelled.  `USE_FIX_ZERO_SA_NUT_AT_WALL` is on, as in
`src/DNDS/Experimentals.hpp:16`; `USE_ABS_VELO_IN_ROTATION` (`:34`) is the parameter `absVelo`.
-/

namespace DNDSR.BC

open DNDSR.Gas

variable {d m : Nat}

/-- `EulerBCType`, `src/Euler/EulerBC.hpp:12-25`, without `BCSpecial` -/
inductive Kind
  | unknown | far | outP | wallInvis | sym | wall | out | inn | inPsTs
  deriving DecidableEq

/-- the turbulence model, `EulerModel` and `settings.ransModel` -/
inductive Turb
  | no | sa | rke | komega | other
  deriving DecidableEq

/-- a state with its turbulence variables -/
abbrev Vars (d m : Nat) := St ℝ d × (Fin m → ℝ)

/-- what the boundary handler has for the zone, `src/Euler/EulerBC.hpp:266-308`: the type, the value, `frameOpt`, `anchorOpt` -/
structure Zone (d m : Nat) where
  kind : Kind
  value : Vars d m
  frameOpt : Nat
  anchorOpt : Nat

/-- what the evaluator has: the gas, the turbulence model, the rotating frame with its velocity
`vOmega().cross(pPhysics - center)(Seq012)` at the point and the rotation `RotateAxis(-vOmega() * t)(Seq012, Seq012)`, the rotation
of the driver of the angle of attack, the anchor value of the zone, and the increment of its profile at the point -/
structure Env (d m : Nat) where
  gamma : ℝ
  Cp : ℝ
  Rgas : ℝ
  muEff : Vars d m → ℝ → ℝ
  turb : Turb
  absVelo : Bool
  rotating : Bool
  w : Fin d → ℝ
  spin : Matrix (Fin d) (Fin d) ℝ
  aoa : Option (Matrix (Fin d) (Fin d) ℝ)
  anchor : Option (Vars d m)
  profile : Option ℝ
  /-- `dWall[iCell].mean()` -/
  dWall : ℝ

/-- the momentum replaced -/
def setV (U : Vars d m) (v : Fin d → ℝ) : Vars d m := ((U.1.c0, v, U.1.c4), U.2)

/-- the three lines of both frame changes, `src/Euler/EulerEvaluator.hpp:811-813,821-823` -/
noncomputable def shiftFrame (w : Fin d → ℝ) (U : Vars d m) (dir : ℝ) : Vars d m :=
  let e := U.1.c4 - U.1.cv ⬝ᵥ U.1.cv / (2 * U.1.c0)
  let v := U.1.cv + (dir * U.1.c0) • w
  ((U.1.c0, v, e + v ⬝ᵥ v / (2 * U.1.c0)), U.2)

/-- `TransformURotatingFrame` under `frameConstRotation.enabled`, `src/Euler/EulerEvaluator.hpp:807-815` -/
noncomputable def Env.toStatic (E : Env d m) (U : Vars d m) (dir : ℝ) : Vars d m :=
  if E.rotating = true ∧ E.absVelo = false then shiftFrame E.w U dir else U

/-- `TransformURotatingFrame_ABS_VELO` under `frameConstRotation.enabled`, `src/Euler/EulerEvaluator.hpp:817-825` -/
noncomputable def Env.toAbs (E : Env d m) (U : Vars d m) (dir : ℝ) : Vars d m :=
  if E.rotating = true ∧ E.absVelo = true then shiftFrame E.w U dir else U

/-- `GetFaceVGrid`, `src/Euler/EulerEvaluator.hpp:776-787`; the point of the face is the point of the value -/
def Env.vGrid (E : Env d m) : Fin d → ℝ := if E.rotating = true ∧ E.absVelo = true then E.w else 0

/-- `far(Seq123) = pCLDriver->GetAOARotation()(Seq012, Seq012) * far(Seq123)`, `EvaluateDt.hxx:1506-1507` -/
def Env.turn (E : Env d m) (U : Vars d m) : Vars d m :=
  match E.aoa with
  | none => U
  | some M => setV U (M.mulVec U.1.cv)

/-- the far field value, `EvaluateDt.hxx:1503-1515`; `far` is the value of the zone or `farFieldStaticValue` -/
def Env.farValue (E : Env d m) (z : Zone d m) : Vars d m :=
  let far := E.turn z.value
  if z.kind = .far ∧ E.rotating = true ∧ z.frameOpt ≠ 0 then setV far (E.spin.mulVec far.1.cv) else far

/-- the pressure replaced in primitive variables -/
def setP (P : Vars d m) (p : ℝ) : Vars d m := ((P.1.c0, P.1.cv, p), P.2)

/-- the pressure of the subsonic outflow, `EvaluateDt.hxx:1545-1578` -/
noncomputable def Env.outPressure (E : Env d m) (z : Zone d m) (UL : Vars d m) (pL pFar : ℝ) : Res ℝ :=
  if z.kind = .outP ∧ z.anchorOpt = 1 then
    let a := E.anchor.getD UL
    (cons2prim E.gamma a.1 a.2).bind fun P => .ok (pFar + max (pL - P.1.c4) (-(95 / 100) * pFar))
  else if z.kind = .outP ∧ z.anchorOpt = 2 then .ok (pFar + max (E.profile.getD 0) (-(95 / 100) * pFar))
  else .ok pFar

/-- far field and pressure outlet, `EvaluateDt.hxx:1497-1599` -/
noncomputable def Env.farBnd (E : Env d m) (z : Zone d m) (n : Fin d → ℝ) (UL : Vars d m) : Res (Vars d m) := do
  Res.assert (UL.1.c0 > 0)
  let far := E.farValue z
  let S := E.toStatic UL 1
  let un := UL.1.cv ⬝ᵥ n / UL.1.c0
  let t := thermal S.1.c4 S.1.c0 ((S.1.c0⁻¹ • S.1.cv) ⬝ᵥ (S.1.c0⁻¹ • S.1.cv)) E.gamma
  Res.assert (t.2.1 ≥ 0)
  let a := √t.2.1
  let vgN := E.vGrid ⬝ᵥ n
  let UR ← if un - vgN - a > 0 then .ok S
    else if un - vgN > 0 then do
      let F ← cons2prim E.gamma far.1 far.2
      let L ← cons2prim E.gamma S.1 S.2
      let p ← E.outPressure z UL L.1.c4 F.1.c4
      let L' := setP L p
      prim2cons E.gamma L'.1 L'.2
    else if un - vgN + a > 0 then do
      let F ← cons2prim E.gamma far.1 far.2
      let L ← cons2prim E.gamma S.1 S.2
      let F' := setP F L.1.c4
      prim2cons E.gamma F'.1 F'.2
    else .ok far
  .ok (E.toStatic UR (-1))

/-- slip walls and symmetry planes, `EvaluateDt.hxx:1850-1859` -/
noncomputable def Env.slip (E : Env d m) (n : Fin d → ℝ) (UL : Vars d m) : Vars d m :=
  let U := E.toAbs UL (-1)
  E.toAbs (setV U (U.1.cv - (2 * (U.1.cv ⬝ᵥ n)) • n)) 1

/-- temperature and viscosity of the mean state, `EvaluateDt.hxx:1910-1917,1930-1937` -/
noncomputable def Env.wallMu (E : Env d m) (UM : Vars d m) : ℝ :=
  let t := thermal UM.1.c4 UM.1.c0 ((UM.1.c0⁻¹ • UM.1.cv) ⬝ᵥ (UM.1.c0⁻¹ • UM.1.cv)) E.gamma
  E.muEff UM (t.1 / ((E.gamma - 1) / E.gamma * E.Cp * UM.1.c0))

/-- the turbulence variables at a wall, `EvaluateDt.hxx:1886-1942`: those of the outer and those of the inner state -/
noncomputable def Env.wallTurb (E : Env d m) (fixUL : Bool) (UL UM : Vars d m) : (Fin m → ℝ) × (Fin m → ℝ) :=
  match E.turb with
  | .no => (UL.2, UL.2)
  | .sa =>
    let r := fun i => if i.val = 0 then -UL.2 i else UL.2 i
    if fixUL then ((fun i => if i.val = 0 then 0 else r i), fun i => if i.val = 0 then 0 else UL.2 i) else (r, UL.2)
  | t =>
    let r := fun i : Fin m => if i.val < 2 then -UL.2 i else UL.2 i
    let w : Option ℝ := match t with
      | .rke => some (2 * (2 * E.wallMu UM / UM.1.c0 * ((if h : 0 < m then UM.2 ⟨0, h⟩ else 0) / UM.1.c0) / (E.dWall * E.dWall)) * UL.1.c0)
      | .komega => some (2 * (E.wallMu UM / (E.dWall * E.dWall) * 800))
      | _ => none
    ((match w with
      | none => r
      | some x => fun i => if i.val = 1 then x - UL.2 i else r i), UL.2)

/-- no-slip walls, `EvaluateDt.hxx:1860-1943` -/
noncomputable def Env.noSlip (E : Env d m) (z : Zone d m) (fixUL : Bool) (UL UM : Vars d m) : Vars d m × Vars d m :=
  let U1 := if z.frameOpt = 0 then E.toAbs UL (-1) else E.toStatic UL 1
  let U2 := setV U1 (-U1.1.cv)
  let U3 := if z.frameOpt = 0 then E.toAbs U2 1 else E.toStatic U2 (-1)
  let t := E.wallTurb fixUL UL UM
  ((U3.1, t.1), (UL.1, t.2))

/-- `Eigen`'s `normalized`: a vector that is zero stays -/
noncomputable def normalized (v : Fin d → ℝ) : Fin d → ℝ := if v ⬝ᵥ v > 0 then (√(v ⬝ᵥ v))⁻¹ • v else v

/-- entry `i + 2` of the value of a zone, `(Seq234)`: the direction -/
def dirOf (U : Vars d m) (i : Fin d) : ℝ :=
  if h : i.val + 1 < d then U.1.cv ⟨i.val + 1, h⟩ else U.1.c4

/-- inlet of total pressure and temperature, `EvaluateDt.hxx:1963-1993`; the value of the zone holds the total pressure, the total
temperature, the direction and the turbulence variables -/
noncomputable def Env.inlet (E : Env d m) (z : Zone d m) (UL : Vars d m) : Res (Vars d m) := do
  let S := E.toStatic UL 1
  let _L ← cons2prim E.gamma S.1 S.2
  let v := S.1.c0⁻¹ • S.1.cv
  let pStag := z.value.1.c0
  let tStag := if h : 0 < d then z.value.1.cv ⟨0, h⟩ else 0
  let vSqr := min (v ⬝ᵥ v) (tStag * 2 * E.Cp * (95 / 100))
  let tStatic := tStag - 1 / 2 * vSqr / E.Cp
  let pStatic := pStag * (tStatic / tStag) ^ (E.gamma / (E.gamma - 1))
  let rStatic := pStatic / (E.Rgas * tStatic)
  let UR ← prim2cons E.gamma ((rStatic, √vSqr • normalized (dirOf z.value), pStatic) : St ℝ d) z.value.2
  .ok (E.toStatic (E.turn UR) (-1))

/-- Models `generateBoundaryValue`, `EvaluateDt.hxx:1476-1995`: the outer state, and the inner state, which may be modified. -/
noncomputable def boundary (E : Env d m) (z : Zone d m) (fixUL : Bool) (n : Fin d → ℝ) (UL UM : Vars d m) : Res (Vars d m × Vars d m) :=
  match z.kind with
  | .far | .outP => do
    let UR ← E.farBnd z n UL
    .ok (UR, UL)
  | .wallInvis | .sym => .ok (E.slip n UL, UL)
  | .wall => .ok (E.noSlip z fixUL UL UM)
  | .out => .ok (UL, UL)
  | .inn => .ok (E.toStatic (E.turn z.value) (-1), UL)
  | .inPsTs => do
    let UR ← E.inlet z UL
    .ok (UR, UL)
  | .unknown => .abort

end DNDSR.BC

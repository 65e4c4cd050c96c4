import Verif.Model.Boundary
import Verif.Spec.Gas

/-!
# What boundary values are (C94)

A state is said by its density, pressure, velocity in the inertial frame and turbulence variables per mass, whichever velocity the
program keeps in a rotating frame.
-/

namespace DNDSR.BC

open DNDSR.Gas

variable {d m : Nat}

/-- density, pressure, velocity in the inertial frame, turbulence variables per mass -/
@[ext] structure Local (d m : Nat) where
  rho : ℝ
  p : ℝ
  V : Fin d → ℝ
  s : Fin m → ℝ

/-- the velocity of the frame at the point -/
def Env.frame (E : Env d m) : Fin d → ℝ := if E.rotating = true then E.w else 0

/-- the conservative variables `U` are those of `g`: with the velocity in the inertial frame or relative to the rotating one -/
structure Env.Has (E : Env d m) (U : Vars d m) (g : Local d m) : Prop where
  gas : IsGas E.gamma g.rho g.p (if E.absVelo = true then g.V else g.V - E.frame) U.1
  turb : U.2 = g.rho • g.s

/-- the gas has positive density and pressure -/
structure Local.Ok (g : Local d m) : Prop where
  rho : 0 < g.rho
  p : 0 < g.p

/-- the value of the zone says `g`: its velocity is in the inertial frame, but for the turning by the angle of attack and the
rotation that carries a fixed direction along -/
structure Env.Prescribes (E : Env d m) (z : Zone d m) (g : Local d m) : Prop where
  value : ∃ V0, IsGas E.gamma g.rho g.p V0 z.value.1 ∧ z.value.2 = g.rho • g.s ∧
    g.V = (if z.kind = .far ∧ E.rotating = true ∧ z.frameOpt ≠ 0 then E.spin else 1).mulVec ((E.aoa.getD 1).mulVec V0)

/-- the turnings are rotations -/
structure Env.Turns (E : Env d m) : Prop where
  spin : E.spin.transpose * E.spin = 1
  aoa : ∀ M, E.aoa = some M → M.transpose * M = 1

/-- the pressure a subsonic outflow gets: the prescribed one, moved by the difference to the anchor or by the profile, but not
below a twentieth -/
noncomputable def outPressure (z : Zone d m) (pL pFar pAnchor incr : ℝ) : ℝ :=
  if z.kind = .outP ∧ z.anchorOpt = 1 then max (pFar + (pL - pAnchor)) (pFar / 20)
  else if z.kind = .outP ∧ z.anchorOpt = 2 then max (pFar + incr) (pFar / 20)
  else pFar

/-- what a far field gives, from the speed `un` of the gas out of the face and the speed of sound: everything from inside or from
outside if the gas goes through faster than sound; otherwise the pressure comes from the other side -/
noncomputable def farState (L F : Local d m) (pOut un a : ℝ) : Local d m :=
  if a < un then L else if 0 < un then { L with p := pOut } else if -a < un then { F with p := L.p } else F

/-- `pA` is the pressure of the anchor, that of the inner state if there is none yet -/
def Env.AnchorPressure (E : Env d m) (L : Local d m) (pA : ℝ) : Prop :=
  (E.anchor = none → pA = L.p) ∧ ∀ A, E.anchor = some A → ∃ rho v, 0 < rho ∧ IsGas E.gamma rho pA v A.1

/-- speed of sound -/
noncomputable def Local.sound (g : Local d m) (gamma : ℝ) : ℝ := √(gamma * g.p / g.rho)

/-- temperature, total temperature, total pressure -/
noncomputable def Local.temp (g : Local d m) (Rgas : ℝ) : ℝ := g.p / (g.rho * Rgas)
noncomputable def Local.total (g : Local d m) (Rgas Cp : ℝ) : ℝ := g.temp Rgas + g.V ⬝ᵥ g.V / (2 * Cp)
noncomputable def Local.totalP (g : Local d m) (gamma Rgas Cp : ℝ) : ℝ := g.p * (g.total Rgas Cp / g.temp Rgas) ^ (gamma / (gamma - 1))

/-- the entries of a state, one after another -/
def entry (U : St ℝ d) : Nat → ℝ
  | 0 => U.1
  | k + 1 => if h : k < d then U.2.1 ⟨k, h⟩ else U.2.2

/-- the value of an inlet: total pressure, total temperature, direction -/
structure Zone.Inlet (z : Zone d m) (pTot tTot : ℝ) (dir : Fin d → ℝ) : Prop where
  p : entry z.value.1 0 = pTot
  t : entry z.value.1 1 = tTot
  dir : ∀ i : Fin d, entry z.value.1 (i + 2) = dir i

/-- what turbulence variable `i` (per volume) is at a wall, `none` if the wall says nothing: from the density inside, and the mean
state `M` of the cell at the wall, whose centre is `dWall` away -/
noncomputable def Env.atWall (E : Env d m) (rhoL : ℝ) (UM : Vars d m) (M : Local d m) (k : ℝ) (i : Nat) : Option ℝ :=
  let mu := E.muEff UM (M.temp ((E.gamma - 1) / E.gamma * E.Cp))
  match E.turb, i with
  | .no, _ => none
  | .sa, 0 => some 0
  | .sa, _ => none
  | _, 0 => some 0
  | .rke, 1 => some (rhoL * (2 * (mu / M.rho) * k / E.dWall ^ 2))
  | .komega, 1 => some (800 * mu / E.dWall ^ 2)
  | .other, 1 => some 0
  | _, _ => none

end DNDSR.BC

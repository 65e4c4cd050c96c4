import Verif.Spec.Boundary

/-!
# What a wall does to a flux (C95)
-/

namespace DNDSR.BC

open DNDSR.Gas

variable {d m : Nat}

/-- no mass goes through the wall, and energy only by the work of the force on a wall that moves with velocity `W` -/
structure Tight (W : Fin d → ℝ) (F : St ℝ d) : Prop where
  mass : F.1 = 0
  work : F.2.2 = W ⬝ᵥ F.2.1

/-- the wall makes the velocity `v'` of `v`: a slip wall mirrors it, seen from the face, which moves with `vg`; a no-slip wall makes
the mean of both its own velocity `W` -/
def Mirrors (slip : Bool) (vg n W v v' : Fin d → ℝ) : Prop :=
  if slip = true then v' = v - (2 * ((v - vg) ⬝ᵥ n)) • n else v' = (2 : ℝ) • W - v

/-- the velocity of a wall as the program keeps velocities: walls move with the mesh, but a no-slip wall can be at rest in the inertial
frame -/
def wallVelo (E : Env d m) (z : Zone d m) : Fin d → ℝ :=
  if z.kind = .wall ∧ z.frameOpt ≠ 0 then E.vGrid - E.frame else E.vGrid

/-- a wall and the gas at it: the states `UL` and `UR` on both sides and the means `ULm` and `URm` are mirror images -/
structure AtWall (gamma : ℝ) (slip : Bool) (vg n W : Fin d → ℝ) (UL UR ULm URm : St ℝ d) : Prop where
  unit : n ⬝ᵥ n = 1
  wall : W ⬝ᵥ n = vg ⬝ᵥ n
  state : ∃ rho p v v', 0 < rho ∧ 0 < p ∧ IsGas gamma rho p v UL ∧ IsGas gamma rho p v' UR ∧ Mirrors slip vg n W v v'
  mean : ∃ rho p v v', 0 < rho ∧ 0 < p ∧ IsGas gamma rho p v ULm ∧ IsGas gamma rho p v' URm ∧ Mirrors slip vg n W v v'

end DNDSR.BC

import Verif.Model.LiftForce

/-!
# What the force on named boundaries is

A flux points out of the domain, so that the force on a boundary is minus the sum of the fluxes of its faces.
-/

namespace DNDSR.LiftF

variable {n : Nat}

open Classical in
/-- the force on the zones `ids`: minus the sum of the fluxes of all faces of the zones, each once -/
noncomputable def forceOn (ids : Finset Int) (faces : List (Face n)) : Fin n → ℝ := -((faces.filter fun f => decide (f.id ∈ ids)).map Face.flux).sum

/-- a zone counts as a wall: its type is that of a wall, or that of a wall with slip and the fluid has no viscosity -/
def IsWall (zs : Tab) (mu : ℝ) (id : Int) : Prop :=
  0 < id ∧ ∃ z, zs[id.toNat]? = some z ∧ (z.1 = .wall ∨ (z.1 = .wallInvis ∧ mu < 1 / 10 ^ 99))

open Classical in
/-- how often a face of zone `id` is counted: once if its zone is named by the user and one of the named ones, and, if it is a wall, once for every standard
wall zone that is named -/
noncomputable def times (zs : Tab) (mu : ℝ) (ids : Finset Int) (id : Int) : ℕ :=
  (if 20 ≤ id ∧ id ∈ ids then 1 else 0) + (if IsWall zs mu id then (ids.filter fun i => i < 20).card else 0)

end DNDSR.LiftF

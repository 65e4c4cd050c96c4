import Verif.Model.Gas
import Mathlib.Analysis.Calculus.Deriv.Prod
import Mathlib.LinearAlgebra.Matrix.NonsingularInverse

/-!
# What the gas relations are about

A primitive state has a density, a velocity and a pressure; its total energy per volume is `p / (γ - 1) + ρ |v|² / 2`.
-/

namespace DNDSR.Gas

variable {K : Type} [Field K] {d : Nat}

/-- The total energy of a calorically perfect gas. -/
def energy (gamma rho p : K) (v : Fin d → K) : K := p / (gamma - 1) + rho * (∑ i, v i * v i) / 2

/-- `U` are the conservative variables of the gas with density `rho`, velocity `v` and pressure `p`. -/
structure IsGas (gamma rho p : K) (v : Fin d → K) (U : St K d) : Prop where
  mass : U.1 = rho
  momentum : ∀ i, U.2.1 i = rho * v i
  energy : U.2.2 = energy gamma rho p v

/-- The Euler flux through a face with normal `n` moving at `vg`: mass, momentum and energy are carried by the velocity relative
to the face, the pressure pushes along the normal and does work at the velocity of the gas. -/
structure IsFlux (gamma rho p : K) (v vg n : Fin d → K) (F : St K d) : Prop where
  mass : F.1 = rho * ∑ j, (v j - vg j) * n j
  momentum : ∀ i, F.2.1 i = rho * v i * (∑ j, (v j - vg j) * n j) + p * n i
  energy : F.2.2 = Gas.energy gamma rho p v * (∑ j, (v j - vg j) * n j) + p * ∑ j, v j * n j

/-- The Euler flux of a conservative state, from the definitions of velocity and pressure. -/
def eulerFlux (gamma : K) (vg n : Fin d → K) (U : St K d) : St K d :=
  let v := fun i => U.2.1 i / U.1
  let p := (gamma - 1) * (U.2.2 - (∑ i, U.2.1 i * U.2.1 i) / (2 * U.1))
  let w := ∑ j, (v j - vg j) * n j
  (U.1 * w, fun i => U.2.1 i * w + p * n i, U.2.2 * w + p * ∑ j, v j * n j)

/-- The primitive variables of a conservative state. -/
def primOf (gamma : K) (U : St K d) : St K d :=
  (U.1, fun i => U.2.1 i / U.1, (gamma - 1) * (U.2.2 - (∑ i, U.2.1 i * U.2.1 i) / (2 * U.1)))

/-- A state with positive density and pressure. -/
structure Physical [LinearOrder K] (gamma : K) (U : St K d) : Prop where
  rho : 0 < U.1
  p : 0 < (primOf gamma U).2.2

/-- Column `j` of a matrix with `d + 2` rows, as a state. -/
def column (d : Nat) (R : Nat → Nat → K) (j : Nat) : St K d := (R 0 j, fun i => R (i.val + 1) j, R (d + 1) j)

end DNDSR.Gas

import Verif.Model.Rotation
import Mathlib.Algebra.BigOperators.Group.Finset.Basic

/-!
# What interpolation with radial functions means
-/

namespace DNDSR.Rbf

open DNDSR.Rot

/-- `u` is the sum of one radial function `f` per point, with vectors as weights -/
def IsRadialSum {n : Nat} (f : ℝ → ℝ) (xs : Fin n → V3) (u : V3 → V3) : Prop :=
  ∃ a : Fin n → V3, ∀ x, u x = ∑ i, f (Rot.norm (x - xs i)) • a i

/-- `u` is a sum of radial functions that takes the given values at the points -/
def Interpolates {n : Nat} (f : ℝ → ℝ) (xs ds : Fin n → V3) (u : V3 → V3) : Prop :=
  IsRadialSum f xs u ∧ ∀ i, u (xs i) = ds i

/-- any values at the points can be met -/
def Solvable {n : Nat} (f : ℝ → ℝ) (xs : Fin n → V3) : Prop := ∀ ds : Fin n → V3, ∃ u, Interpolates f xs ds u

/-- what a search for the `k` nearest points returns: `k` of the points, or all, none of the others being nearer -/
structure IsNearest (k : Nat) (pts : List (V3 × V3)) (x : V3) (found : List (V3 × V3)) : Prop where
  rest : ∃ others, (found ++ others).Perm pts ∧ ∀ p ∈ found, ∀ q ∈ others, Rot.norm (p.1 - x) ≤ Rot.norm (q.1 - x)
  count : found.length = min k pts.length

end DNDSR.Rbf

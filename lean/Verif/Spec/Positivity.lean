import Verif.Spec.GasRatio
import Mathlib.Data.Nat.Choose.Basic

/-!
# What the limiters of density and pressure must keep
-/

namespace DNDSR.Pos

open DNDSR.Gas

variable {d N : Nat}

/-- density at least `rhoEps` and internal energy per volume at least `e` -/
def Physical (rhoEps e : ℝ) (U : St ℝ d) : Prop := rhoEps ≤ U.1 ∧ e ≤ internal U

/-- the value at a point of the polynomial with mean `u` and coefficients `x`, where the base functions have the values `b` -/
def valueAt {V : Type} [AddCommMonoid V] [Module ℝ V] (u : V) (x : Fin N → V) (b : Fin N → ℝ) : V := u + ∑ j, b j • x j

/-- the part of degree up to `p` of a polynomial in `dim` variables: in `dim` variables there are `(p + dim).choose dim` monomials up to that degree, and the constant is
no coefficient -/
def cut {V : Type} [Zero V] (dim p : Nat) (x : Fin N → V) : Fin N → V := fun j => if (j : Nat) + 1 < (p + dim).choose dim then x j else 0

/-- room for the rounding guards of the compression ratio between a state and a floor of its internal energy -/
def Room (floor : ℝ) (U : St ℝ d) : Prop :=
  1 / 10 ^ 150 ≤ 2 * U.1 * (internal U - max (1 / 10 ^ 10 * internalG (1 / 10 ^ 200) U) floor)

/-- `y` is `x` without what has a degree above `p + 1`, and of what has degree `p + 1` the fraction `t` -/
def Between {V : Type} [AddCommGroup V] [Module ℝ V] (dim p : Nat) (t : ℝ) (x y : Fin N → V) : Prop :=
  ∀ j, y j = cut dim p x j + t • (cut dim (p + 1) x j - cut dim p x j)

end DNDSR.Pos

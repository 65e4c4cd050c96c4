import Verif.Model.BndRecord
import Mathlib.MeasureTheory.Measure.Lebesgue.Basic

/-!
# Vocabulary for what is recorded at a boundary (C96)
-/

namespace DNDSR.BRec

variable {n : Nat}

/-- the part of the interval `[l, r]` that lies between `a` and `b` -/
noncomputable def share (l r a b : ℝ) : ℝ :=
  (MeasureTheory.volume (Set.Icc l r ∩ Set.Icc a b)).toReal / (MeasureTheory.volume (Set.Icc l r)).toReal

/-- the nodes of the face reach from `l` to `r` -/
structure Spans (f : BFace n) (l r : ℝ) : Prop where
  least : IsLeast {x | x ∈ f.radii} l
  greatest : IsGreatest {x | x ∈ f.radii} r
  proper : l < r
  small : ∀ x ∈ f.radii, |x| ≤ Dof.veryLarge

/-- the nodes of a profile increase from `lo` to `hi` -/
structure Ladder (nodes : List ℝ) (lo hi : ℝ) : Prop where
  two : 2 ≤ nodes.length
  first : nodes.head? = some lo
  last : nodes.getLast? = some hi
  increasing : nodes.Pairwise (· < ·)

/-- the value of an interval of a profile: the mean of what was added -/
noncomputable def mean (b : Bin n) : Val n := (b.1 + 1 / 10 ^ 200)⁻¹ • b.2

/-- mean of `x` over length `l` and `y` over length `m` -/
noncomputable def over (l m x y : ℝ) : ℝ := (x * l + y * m) / (l + m)

/-- the pressure rises from interval `b` to the next interval `c` as the gas turns around the axis: by the mean density times the square of
the mean speed over the radius of the node between them, times the distance of the middles; `x`, `y`, `z` are the nodes -/
noncomputable def rise (rho vt : Fin n) (x y z : ℝ) (b c : Val n) : ℝ :=
  over (y - x) (z - y) (b rho) (c rho) * over (y - x) (z - y) (b vt / b rho) (c vt / c rho) ^ 2 / y * ((z + y) / 2 - (y + x) / 2)

end DNDSR.BRec

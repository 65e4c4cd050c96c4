import Verif.Model.SmoothDt
import Verif.Spec.TimeStep

/-!
# Smoothed time steps of the whole mesh (C91)
-/

namespace DNDSR.Dt

open DNDSR.Faces
open DNDSR.Flux (nSides)

/-- the faces of cell `i` that have a cell behind them -/
def inner (G : List Cell) (mate : Nat → Nat → Option Nat) (i : Nat) : Finset Nat := (Finset.range (nSides G i)).filter fun j => (mate i j).isSome

/-- the cell behind face `j`; the cell itself at a boundary -/
def across (mate : Nat → Nat → Option Nat) (i j : Nat) : Nat := (mate i j).getD i

/-- the mean over these faces of the mean of the steps on the two sides -/
noncomputable def faceMean (G : List Cell) (mate : Nat → Nat → Option Nat) (t : Nat → ℝ) (i : Nat) : ℝ :=
  (∑ j ∈ inner G mate i, (t i + t (across mate i j)) / 2) / (inner G mate i).card

/-- a pass over the whole mesh: no step stays above that mean -/
noncomputable def smoothStep (G : List Cell) (mate : Nat → Nat → Option Nat) (t : Nat → ℝ) (i : Nat) : ℝ :=
  if inner G mate i = ∅ then t i else min (t i) (faceMean G mate t i)

end DNDSR.Dt

import Verif.Spec.Gas
import Verif.Spec.LimProc
import Verif.Model.CharVar

/-!
# What characteristic variables have to be (C100)
-/

namespace DNDSR.CharVar

open DNDSR.Gas
open Matrix

/-- The variables of the gas: density, momentum and energy. -/
def gasOf (d e : Nat) (x : Fin (d + 2 + e) → ℝ) : St ℝ d :=
  (x ⟨0, by omega⟩, fun i => x ⟨i.1 + 1, by omega⟩, x ⟨d + 1, by omega⟩)

/-- The state halfway between two. -/
noncomputable def midway {k : Nat} (x y : Fin k → ℝ) : Fin k → ℝ := fun i => (x i + y i) / 2

/-- The components of a vector in the plane or in space. -/
def inDim (d : Nat) (n : Fin 3 → ℝ) (i : Fin d) : ℝ := if h : i.1 < 3 then n ⟨i.1, h⟩ else 0

/-- A vector of length one in the plane or in space. -/
def UnitIn (d : Nat) (n : Fin 3 → ℝ) : Prop := (d = 2 ∨ d = 3) ∧ ∑ i, inDim d n i * inDim d n i = 1

/-- Rows that are orthogonal to each other and of length one. -/
def Orthonormal {d : Nat} (b : Fin d → Fin d → ℝ) : Prop := ∀ k l, ∑ i, b k i * b l i = if k = l then 1 else 0

/-- The speed of sound of a state. -/
noncomputable def sound {d : Nat} (gamma : ℝ) (U : St ℝ d) : ℝ := √(gamma * (primOf gamma U).2.2 / U.1)

/-- The velocity of a state along a vector. -/
noncomputable def along {d : Nat} (U : St ℝ d) (n : Fin d → ℝ) : ℝ := ∑ i, (primOf 0 U).2.1 i * n i

end DNDSR.CharVar

import Mathlib.Analysis.Calculus.Deriv.Basic
import Mathlib.Analysis.Real.Sqrt
import Mathlib.Analysis.Calculus.ContDiff.Basic
import Mathlib.Data.Matrix.Mul

/-!
# Partial derivatives and the order in which a table lists them
-/

namespace DNDSR.Jet

variable {d : Nat}

/-- The partial derivative in the coordinate `i`. -/
noncomputable def pd (i : Fin d) (f : (Fin d → ℝ) → ℝ) (x : Fin d → ℝ) : ℝ := deriv (fun t => f (Function.update x i t)) (x i)

/-- A repeated partial derivative. -/
noncomputable def pdL : List (Fin d) → ((Fin d → ℝ) → ℝ) → (Fin d → ℝ) → ℝ
  | [], f => f
  | i :: l, f => pd i (pdL l f)

/-- The order of the derivatives in two dimensions: value, `x y`, `xx xy yy`, `xxx xxy xyy yyy`. -/
def rows2 : List (List (Fin 2)) :=
  [[], [0], [1], [0, 0], [0, 1], [1, 1], [0, 0, 0], [0, 0, 1], [0, 1, 1], [1, 1, 1]]

/-- The order of the derivatives in three dimensions: value, `x y z`, `xx yy zz xy yz xz`,
`xxx yyy zzz xxy xyy yyz yzz xzz xxz xyz`. -/
def rows3 : List (List (Fin 3)) :=
  [[], [0], [1], [2], [0, 0], [1, 1], [2, 2], [0, 1], [1, 2], [0, 2],
   [0, 0, 0], [1, 1, 1], [2, 2, 2], [0, 0, 1], [0, 1, 1], [1, 1, 2], [1, 2, 2], [0, 2, 2], [0, 0, 2], [0, 1, 2]]

/-- The first `n` entries of the column `c` are the derivatives of `f` at `x`, in the order `rows`. -/
def IsJet (rows : List (List (Fin d))) (n : Nat) (f : (Fin d → ℝ) → ℝ) (x : Fin d → ℝ) (c : Nat → ℝ) : Prop :=
  ∀ k, k < n → c k = pdL (rows.getD k []) f x

/-- The monomial with the given factors, in coordinates scaled by `l`. -/
noncomputable def monomial (l : Fin d → ℝ) (factors : List (Fin d)) (x : Fin d → ℝ) : ℝ := (factors.map fun a => x a / l a).prod

/-- The affine map `x ↦ Dᵀ x + b`: `D i m` is the derivative of the `m`-th new coordinate in the `i`-th old one. -/
def affine {e : Nat} (D : Matrix (Fin d) (Fin e) ℝ) (b : Fin e → ℝ) (x : Fin d → ℝ) : Fin e → ℝ := fun m => (∑ i, D i m * x i) + b m

/-- Infinitely often differentiable. -/
def Smooth (f : (Fin d → ℝ) → ℝ) : Prop := ContDiff ℝ (⊤ : ℕ∞) f

end DNDSR.Jet

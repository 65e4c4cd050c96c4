import Mathlib.Analysis.Real.Sqrt
import Mathlib.Algebra.BigOperators.Group.Finset.Basic

/-!
# What limiters may return
-/

namespace DNDSR.Lim

/-- `x` lies between `a` and `b`, in either order. -/
def Between (a b x : ℝ) : Prop := min a b ≤ x ∧ x ≤ max a b

/-- `x` is a combination of the vectors in the list with nonnegative coefficients of sum at most 1: a convex combination of them and
of the zero vector. -/
def InHull {m : Nat} (us : List (Fin m → ℝ)) (x : Fin m → ℝ) : Prop :=
  ∃ c : List ℝ, c.length = us.length ∧ (∀ y ∈ c, 0 ≤ y) ∧ c.sum ≤ 1 ∧ ∀ k, x k = (List.zipWith (fun y u => y * u k) c us).sum

/-- `x` is a convex combination of the vectors in the list. -/
def InConv {m : Nat} (us : List (Fin m → ℝ)) (x : Fin m → ℝ) : Prop :=
  ∃ c : List ℝ, c.length = us.length ∧ (∀ y ∈ c, 0 ≤ y) ∧ c.sum = 1 ∧ ∀ k, x k = (List.zipWith (fun y u => y * u k) c us).sum

/-- The weighted Euclidean norm, squared. -/
noncomputable def sqNorm {m : Nat} (w : List ℝ) (t : Fin m → ℝ) : ℝ := ∑ k : Fin m, w.getD k.val 0 * (t k * t k)

/-- The value at `x` of the polynomial with coefficient `u k` on the product of the coordinates listed in row `k` of `dims`. -/
noncomputable def polyEval {m d : Nat} (dims : List (List (Fin d))) (u : Fin m → ℝ) (x : Fin d → ℝ) : ℝ :=
  ∑ k : Fin m, u k * ((dims.getD k.val []).map x).prod

/-- `Q` is an orthogonal matrix: a rotation or a reflection. -/
def Orthogonal {d : Nat} (Q : Fin d → Fin d → ℝ) : Prop :=
  (∀ i j, ∑ a, Q i a * Q j a = if i = j then 1 else 0) ∧ (∀ a b, ∑ i, Q i a * Q i b = if a = b then 1 else 0)

/-- The point with coordinates `∑ a, Q i a * x a`. -/
noncomputable def turn {d : Nat} (Q : Fin d → Fin d → ℝ) (x : Fin d → ℝ) : Fin d → ℝ := fun i => ∑ a, Q i a * x a

end DNDSR.Lim

import Verif.Model.Quadrature
import Verif.Proof.QuadIntegral

/-!
# The tables against the integrals of monomials
-/

namespace DNDSR.Quad

open DNDSR.Elem

/-- The point `i` of the scheme with `s` points. -/
def ptOf (ps : ParamSpace) (s i : Nat) : Pt :=
  match ps with
  | .line => linePt s i
  | .tri => triPt s i
  | .tet => tetPt s i
  | .quad => quadPt s i
  | .hex => hexPt s i
  | .pyramid => pyramidPt s i
  | .prism => prismPt s i
  | .unknown => noPt

/-- Power by repeated products. -/
def powQ (x : ℚ) : Nat → ℚ
  | 0 => 1
  | n + 1 => powQ x n * x

theorem powQ_eq (x : ℚ) (n : Nat) : powQ x n = x ^ n := by
  induction n with
  | zero => simp [powQ]
  | succ n ih => rw [powQ, ih, pow_succ]

/-- The sum of the scheme for a monomial, over the first `n` points. -/
def sumQ (ps : ParamSpace) (s a b c : Nat) : Nat → ℚ
  | 0 => 0
  | n + 1 => sumQ ps s a b c n + powQ (ptOf ps s n).x a * powQ (ptOf ps s n).y b * powQ (ptOf ps s n).z c * (ptOf ps s n).w

/-- The tolerance. -/
def tolQ : ℚ := mkRat 2 (10 ^ 14)

/-- The scheme integrates every monomial of degree at most `order`. -/
def checkOrder (ps : ParamSpace) (order : Nat) : Bool :=
  (List.range (order + 1)).all fun a => (List.range (order + 1 - a)).all fun b => (List.range (order + 1 - a - b)).all fun c =>
    let s := scheme ps order
    let d := sumQ ps s a b c s - monoQ ps a b c
    decide (d ≤ tolQ) && decide (-tolQ ≤ d)

/-- The point is in the reference element, strictly. -/
def inRefQ (ps : ParamSpace) (q : Pt) : Bool :=
  match ps with
  | .line => decide (-1 < q.x) && decide (q.x < 1) && decide (q.y = 0) && decide (q.z = 0)
  | .tri => decide (0 < q.x) && decide (0 < q.y) && decide (q.x + q.y < 1) && decide (q.z = 0)
  | .quad => decide (-1 < q.x) && decide (q.x < 1) && decide (-1 < q.y) && decide (q.y < 1) && decide (q.z = 0)
  | .tet => decide (0 < q.x) && decide (0 < q.y) && decide (0 < q.z) && decide (q.x + q.y + q.z < 1)
  | .hex => decide (-1 < q.x) && decide (q.x < 1) && decide (-1 < q.y) && decide (q.y < 1) && decide (-1 < q.z) && decide (q.z < 1)
  | .prism => decide (0 < q.x) && decide (0 < q.y) && decide (q.x + q.y < 1) && decide (-1 < q.z) && decide (q.z < 1)
  | .pyramid => decide (0 < q.z) && decide (-(1 - q.z) < q.x) && decide (q.x < 1 - q.z) && decide (-(1 - q.z) < q.y) && decide (q.y < 1 - q.z)
      && decide (q.z < 9 / 10)
  | .unknown => false

/-- The points are in the element and the weights are positive. -/
def checkPts (ps : ParamSpace) (order : Nat) : Bool :=
  (List.range (scheme ps order)).all fun i => inRefQ ps (ptOf ps (scheme ps order) i) && decide (0 < (ptOf ps (scheme ps order) i).w)

/-- All checks for one kind of element. -/
def check (ps : ParamSpace) : Bool :=
  (List.range 7).all fun order => decide (0 < scheme ps order) && checkPts ps order && checkOrder ps order

theorem line_check : check .line = true := by decide +kernel
theorem tri_check : check .tri = true := by decide +kernel
theorem quad_check : check .quad = true := by decide +kernel
theorem tet_check : check .tet = true := by decide +kernel
theorem hex_check : check .hex = true := by decide +kernel
theorem prism_check : check .prism = true := by decide +kernel
theorem pyramid_check : check .pyramid = true := by decide +kernel

theorem check_all {ps : ParamSpace} (h : ps ≠ .unknown) : check ps = true := by
  cases ps
  · exact absurd rfl h
  · exact line_check
  · exact tri_check
  · exact quad_check
  · exact tet_check
  · exact hex_check
  · exact prism_check
  · exact pyramid_check

end DNDSR.Quad

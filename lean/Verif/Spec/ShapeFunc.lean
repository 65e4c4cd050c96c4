import Verif.Model.ShapeFunc
import Verif.Spec.Jet

/-!
# What shape functions are for
-/

namespace DNDSR.Shape

open DNDSR.Elem

/-- The number of nodes of the element. -/
def nodes (t : ElemType) : Nat := (numNodes t).toNat

/-- The place of the `j`-th node in parametric space, as `GetStandardCoord` gives it (the model stores it doubled). -/
noncomputable def nodeAt (t : ElemType) (j : Nat) : Fin 3 → ℝ :=
  let x := (stdCoord2 t).getD j (0, 0, 0)
  ![x.1 / 2, x.2.1 / 2, x.2.2 / 2]

/-- The `j`-th value that `GetNj` returns at the point. -/
noncomputable def value (t : ElemType) (j : Nat) (p : Fin 3 → ℝ) : ℝ :=
  match getNj t p with
  | .ok v => v j
  | _ => 0

/-- The order of the derivatives in a table for an element of dimension `d`. -/
def rowsOf (d : Int) : List (List (Fin 3)) :=
  if d = 1 then [[], [0], [0, 0], [0, 0, 0]]
  else if d = 2 then Jet.rows2.map fun l => l.map Fin.castSucc
  else Jet.rows3

/-- The number of derivatives of order at most `n` in dimension `d`. -/
def derivs (d : Int) (n : Nat) : Nat := if d = 1 then n + 1 else if d = 2 then (n + 1) * (n + 2) / 2 else (n + 1) * (n + 2) * (n + 3) / 6

/-- A pyramid. -/
def Pyramid (t : ElemType) : Prop := t = .pyramid5 ∨ t = .pyramid14

/-- The point is far enough from the plane of the apex, where the shape functions of a pyramid have no value,
or the element is not a pyramid. -/
def Away (t : ElemType) (p : Fin 3 → ℝ) : Prop := Pyramid t → 1 / 10 ^ 15 ≤ |1 - p 2|

/-- The shift by `10⁻¹⁵` near the plane of the apex does not change around the point: it is the place where the
shift sets in, or changes its sign, that is left out. -/
def Steady (t : ElemType) (p : Fin 3 → ℝ) : Prop := Pyramid t → p 2 ≠ 1 ∧ |1 - p 2| ≠ 1 / 10 ^ 15

/-- The nodes of the face `i`, by their places in the element. -/
def faceNodes (t : ElemType) (i : Nat) : List Nat := (((faceNodeList t).getD i []).take (nodes (faceType t i))).map Int.toNat

/-- The point of the face with the parameters `s`, in the parametric space of the element. -/
noncomputable def facePoint (t : ElemType) (i : Nat) (s : Fin 3 → ℝ) : Fin 3 → ℝ :=
  fun a => ((List.range (nodes (faceType t i))).map fun k => nodeAt t ((faceNodes t i).getD k 0) a * value (faceType t i) k s).sum

end DNDSR.Shape

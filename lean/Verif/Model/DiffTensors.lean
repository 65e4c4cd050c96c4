import Verif.Model.BaseFunction
import Verif.Model.Periodic
import Mathlib.LinearAlgebra.Matrix.NonsingularInverse

/-!
# Transforming tables of derivatives

Models `src/Geom/DiffTensors.hpp` and the part of `src/Geom/EigenTensor.hpp` it uses, over the real numbers. A table of derivatives has one
column per function; the functions here treat every column alike, so the model has one column, a function of the row.
-/

namespace DNDSR.Jet

open Matrix

variable {d : Nat}

/-- The dimension dependent tables the functions read. -/
structure Tab (d : Nat) where
  /-- `diffOperatorDimList[row][k]` -/
  dim : Nat → Nat → Fin d
  /-- `diffOperatorIJK2I` -/
  ix : List (Fin d) → Nat
  /-- `ndiffSizS` -/
  siz : Nat → Nat

/-- Models the selection of the tables for dimension 2, `src/Geom/BaseFunction.hpp:16-20`, `182-189`, `src/Geom/DiffTensors.hpp:355`. -/
def tab2 : Tab 2 := ⟨fun r k => (dimList2.getD r []).getD k 0, ijk2, ndiffSiz 2⟩

/-- Models the selection of the tables for dimension 3, `src/Geom/BaseFunction.hpp:16-20`, `182-189`, `src/Geom/DiffTensors.hpp:355`. -/
def tab3 : Tab 3 := ⟨fun r k => (dimList3.getD r []).getD k 0, ijk3, ndiffSiz 3⟩

/-- A tensor of rank 3, `ETensorR3`, `src/Geom/EigenTensor.hpp:9-30`. -/
abbrev Ten3 (d : Nat) := Fin d → Fin d → Fin d → ℝ

/-- Models `MatTransform0`, `src/Geom/EigenTensor.hpp:58-67`. -/
def matTransform0 (R : Matrix (Fin d) (Fin d) ℝ) (T : Ten3 d) : Ten3 d := fun i j k => ∑ a, Rᵀ i a * T a j k

/-- Models `MatTransform1`, `src/Geom/EigenTensor.hpp:69-78`. -/
def matTransform1 (R : Matrix (Fin d) (Fin d) ℝ) (T : Ten3 d) : Ten3 d := fun i j k => ∑ a, T i a k * R a j

/-- Models `MatTransform2`, `src/Geom/EigenTensor.hpp:80-89`. -/
def matTransform2 (R : Matrix (Fin d) (Fin d) ℝ) (T : Ten3 d) : Ten3 d := fun i j k => ∑ a, T i j a * R a k

/-- Which entry of the packed second derivatives goes into the symmetric matrix, 2D, `src/Geom/DiffTensors.hpp:243-244`. -/
def pack22 (i j : Fin 2) : Nat := ([[0, 1], [1, 2]].getD i []).getD j 0

/-- Which entry of the packed second derivatives goes into the symmetric matrix, 3D, `src/Geom/DiffTensors.hpp:177-180`. -/
def pack32 (i j : Fin 3) : Nat := ([[0, 3, 5], [3, 1, 4], [5, 4, 2]].getD i []).getD j 0

/-- Which entry of the packed third derivatives goes into the tensor, 2D, `src/Geom/DiffTensors.hpp:251-255`. -/
def pack23 (i j k : Fin 2) : Nat := (([[[0, 1], [1, 2]], [[1, 2], [2, 3]]].getD i []).getD j []).getD k 0

/-- Which entry of the packed third derivatives goes into the tensor, 3D, `src/Geom/DiffTensors.hpp:198-211`. -/
def pack33 (i j k : Fin 3) : Nat :=
  (([[[0, 3, 8], [3, 4, 9], [8, 9, 7]],
     [[3, 4, 9], [4, 1, 5], [9, 5, 6]],
     [[8, 9, 7], [9, 5, 6], [7, 6, 2]]].getD i []).getD j []).getD k 0

/-- The entries of the symmetric matrix written back, 2D, `src/Geom/DiffTensors.hpp:246`. -/
def back22 : List (Fin 2 × Fin 2) := [(0, 0), (0, 1), (1, 1)]

/-- The entries of the symmetric matrix written back, 3D, `src/Geom/DiffTensors.hpp:182-183`. -/
def back32 : List (Fin 3 × Fin 3) := [(0, 0), (1, 1), (2, 2), (0, 1), (1, 2), (0, 2)]

/-- The entries of the tensor written back, 2D, `src/Geom/DiffTensors.hpp:259-262`. -/
def back23 : List (Fin 2 × Fin 2 × Fin 2) := [(0, 0, 0), (0, 0, 1), (0, 1, 1), (1, 1, 1)]

/-- The entries of the tensor written back, 3D, `src/Geom/DiffTensors.hpp:216-225`. -/
def back33 : List (Fin 3 × Fin 3 × Fin 3) :=
  [(0, 0, 0), (1, 1, 1), (2, 2, 2), (0, 0, 1), (0, 1, 1), (1, 1, 2), (1, 2, 2), (0, 2, 2), (0, 0, 2), (0, 1, 2)]

/-- Models `TransSymDiffOrderTensorV<2, 2>`, `src/Geom/DiffTensors.hpp:241-247`. -/
def transSym22 (D : Matrix (Fin 2) (Fin 2) ℝ) (Le : Nat → ℝ) (r : Nat) : ℝ :=
  let S : Matrix (Fin 2) (Fin 2) ℝ := fun i j => Le (pack22 i j)
  let S := D * S * Dᵀ
  S (back22.getD r (0, 0)).1 (back22.getD r (0, 0)).2

/-- Models `TransSymDiffOrderTensorV<3, 2>`, `src/Geom/DiffTensors.hpp:168-184`. -/
def transSym32 (D : Matrix (Fin 3) (Fin 3) ℝ) (Le : Nat → ℝ) (r : Nat) : ℝ :=
  let S : Matrix (Fin 3) (Fin 3) ℝ := fun i j => Le (pack32 i j)
  let S := D * S * Dᵀ
  S (back32.getD r (0, 0)).1 (back32.getD r (0, 0)).2

/-- Models `TransSymDiffOrderTensorV<2, 3>`, `src/Geom/DiffTensors.hpp:248-263`. -/
def transSym23 (D : Matrix (Fin 2) (Fin 2) ℝ) (Le : Nat → ℝ) (r : Nat) : ℝ :=
  let T : Ten3 2 := fun i j k => Le (pack23 i j k)
  let T := matTransform2 Dᵀ (matTransform1 Dᵀ (matTransform0 Dᵀ T))
  let b := back23.getD r (0, 0, 0)
  T b.1 b.2.1 b.2.2

/-- Models `TransSymDiffOrderTensorV<3, 3>`, `src/Geom/DiffTensors.hpp:185-226`. -/
def transSym33 (D : Matrix (Fin 3) (Fin 3) ℝ) (Le : Nat → ℝ) (r : Nat) : ℝ :=
  let T : Ten3 3 := fun i j k => Le (pack33 i j k)
  let T := matTransform2 Dᵀ (matTransform1 Dᵀ (matTransform0 Dᵀ T))
  let b := back33.getD r (0, 0, 0)
  T b.1 b.2.1 b.2.2

/-- Rows `lo` to `hi` of a column replaced by `f` of these rows. -/
def onRows (lo hi : Nat) (f : (Nat → ℝ) → Nat → ℝ) (u : Nat → ℝ) : Nat → ℝ :=
  fun r => if lo ≤ r ∧ r ≤ hi then f (fun k => u (lo + k)) (r - lo) else u r

/-- A matrix times the three (or two) leading entries. -/
def transVec (D : Matrix (Fin d) (Fin d) ℝ) (Le : Nat → ℝ) (r : Nat) : ℝ :=
  if h : r < d then ∑ a, D ⟨r, h⟩ a * Le a else 0

/-- Models `ConvertDiffsLinMap<2>`, `src/Geom/DiffTensors.hpp:272-300`: the cases fall through. -/
def linMap2 (D3 : Per.M3) (rows : Nat) (u : Nat → ℝ) : Res (Nat → ℝ) :=
  let D := Per.block D3
  let third := onRows 6 9 (transSym23 D)
  let second := onRows 3 5 (transSym22 D)
  let first := onRows 1 2 (transVec D)
  match rows with
  | 10 => .ok (first (second (third u)))
  | 6 => .ok (first (second u))
  | 3 => .ok (first u)
  | 1 => .ok u
  | _ => .abort

/-- Models `ConvertDiffsLinMap<3>`, `src/Geom/DiffTensors.hpp:301-328`: the cases fall through. -/
def linMap3 (D : Per.M3) (rows : Nat) (u : Nat → ℝ) : Res (Nat → ℝ) :=
  let third := onRows 10 19 (transSym33 D)
  let second := onRows 4 9 (transSym32 D)
  let first := onRows 1 3 (transVec D)
  match rows with
  | 20 => .ok (first (second (third u)))
  | 10 => .ok (first (second u))
  | 4 => .ok (first u)
  | 1 => .ok u
  | _ => .abort

/-- Models `ConvertDiffsFullMap`, `src/Geom/DiffTensors.hpp:330-424`; `J` is `DxiDx`. The rows of each order are written back before the
next order is computed. -/
def fullMap (T : Tab d) (rows : Nat) (J : Nat → Fin d → ℝ) (u : Nat → ℝ) : Res (Nat → ℝ) :=
  match ndiff2order d rows with
  | none => .abort
  | some order =>
    if order = 0 then .ok u
    else
      let u := fun r =>
        if 1 ≤ r ∧ r < T.siz 1 then ∑ m, J (T.ix [T.dim r 0]) m * u (T.ix [m]) else u r
      if order = 1 then .ok u
      else
        let u := fun r =>
          if T.siz 1 ≤ r ∧ r < T.siz 2 then
            let i := T.dim r 0
            let j := T.dim r 1
            (∑ m, J (T.ix [i, j]) m * u (T.ix [m])) + ∑ m, ∑ n, J (T.ix [i]) m * J (T.ix [j]) n * u (T.ix [m, n])
          else u r
        if order = 2 then .ok u
        else
          let u := fun r =>
            if T.siz 2 ≤ r ∧ r < T.siz 3 then
              let i := T.dim r 0
              let j := T.dim r 1
              let k := T.dim r 2
              (∑ m, J (T.ix [i, j, k]) m * u (T.ix [m])) +
              (∑ m, ∑ n, (J (T.ix [i, j]) m * J (T.ix [k]) n * u (T.ix [m, n]) +
                J (T.ix [i, k]) m * J (T.ix [j]) n * u (T.ix [m, n]) +
                J (T.ix [j, k]) m * J (T.ix [i]) n * u (T.ix [m, n]))) +
              ∑ m, ∑ n, ∑ p, J (T.ix [i]) m * J (T.ix [j]) n * J (T.ix [k]) p * u (T.ix [m, n, p])
            else u r
          .ok u

/-- Models `DxDxi2DxiDx`, `src/Geom/DiffTensors.hpp:467-559`; `X` is `DxDxi`, `J0` the previous content of `DxiDx`. In two dimensions the code
works with three columns, a matrix extended by a one on the diagonal; the model has the two columns of the plane. The inverse by
elimination with full pivoting is the matrix inverse. -/
noncomputable def invMap (T : Tab d) (maxDiff : Nat) (X J0 : Nat → Fin d → ℝ) : Res (Nat → Fin d → ℝ) :=
  if maxDiff ≤ 0 then .ok J0
  else
    let A : Matrix (Fin d) (Fin d) ℝ := fun i j => X (1 + i) j
    let B := A⁻¹
    let J := fun r j => if h : 1 ≤ r ∧ r - 1 < d then B ⟨r - 1, h.2⟩ j else J0 r j
    if maxDiff = 1 then .ok J
    else
      let rhs2 : Nat → Fin d → ℝ := fun r j =>
        let i := T.dim r 0
        let k := T.dim r 1;
        -∑ m, ∑ n, X (T.ix [m, n]) j * J (T.ix [i]) m * J (T.ix [k]) n
      let J2 := fun r c => if T.siz 1 ≤ r ∧ r < T.siz 2 then ∑ j, rhs2 r j * B j c else J r c
      if maxDiff = 2 then .ok J2
      else
        let rhs3 : Nat → Fin d → ℝ := fun r j =>
          let i := T.dim r 0
          let k := T.dim r 1
          let l := T.dim r 2;
          -(∑ m, ∑ n, (X (T.ix [m, n]) j * J2 (T.ix [i, k]) m * J2 (T.ix [l]) n +
              X (T.ix [m, n]) j * J2 (T.ix [k, l]) m * J2 (T.ix [i]) n +
              X (T.ix [m, n]) j * J2 (T.ix [i, l]) m * J2 (T.ix [k]) n)) -
            ∑ m, ∑ n, ∑ p, X (T.ix [m, n, p]) j * J2 (T.ix [i]) m * J2 (T.ix [k]) n * J2 (T.ix [l]) p
        let J3 := fun r c => if T.siz 2 ≤ r ∧ r < T.siz 3 then ∑ j, rhs3 r j * B j c else J2 r c
        if maxDiff = 3 then Res.ok J3 else Res.abort

/-- Models `TransDiValueInplace<3>`, `src/Geom/DiffTensors.hpp:434-446`. -/
def transDi3 (P : Per.Periodicity) (rows : Nat) (u : Nat → ℝ) (id : Int) : Res (Nat → ℝ) := do
  let i ← Per.slot id
  linMap3 (P.rotation i) rows u

/-- Models `TransDiValueBackInplace<3>`, `src/Geom/DiffTensors.hpp:448-459`. -/
def transDiBack3 (P : Per.Periodicity) (rows : Nat) (u : Nat → ℝ) (id : Int) : Res (Nat → ℝ) := do
  let i ← Per.slot id
  linMap3 ((P.rotation i)ᵀ) rows u

/-- Models `TransDiValueInplace<2>`, `src/Geom/DiffTensors.hpp:434-446`. -/
def transDi2 (P : Per.Periodicity) (rows : Nat) (u : Nat → ℝ) (id : Int) : Res (Nat → ℝ) := do
  let i ← Per.slot id
  linMap2 (P.rotation i) rows u

/-- Models `TransDiValueBackInplace<2>`, `src/Geom/DiffTensors.hpp:448-459`. -/
def transDiBack2 (P : Per.Periodicity) (rows : Nat) (u : Nat → ℝ) (id : Int) : Res (Nat → ℝ) := do
  let i ← Per.slot id
  linMap2 ((P.rotation i)ᵀ) rows u

/-- Models `NormSymDiffOrderTensorV<2, rank, powV>`, `src/Geom/DiffTensors.hpp:88-152`; with `powV = 1` the weights are the counts themselves. -/
def normSym2 (rank powV : Nat) (Le Ri : Nat → ℝ) : Res ℝ :=
  match rank with
  | 0 => .ok (∑ k : Fin 1, Le k * Ri k * (nCombs2.getD k 0 : ℝ) ^ powV)
  | 1 => .ok (∑ k : Fin 2, Le k * Ri k * (nCombs2.getD (k + 1) 0 : ℝ) ^ powV)
  | 2 => .ok (∑ k : Fin 3, Le k * Ri k * (nCombs2.getD (k + 3) 0 : ℝ) ^ powV)
  | 3 => .ok (∑ k : Fin 4, Le k * Ri k * (nCombs2.getD (k + 6) 0 : ℝ) ^ powV)
  | _ => .abort

/-- Models `NormSymDiffOrderTensorV<3, rank, powV>`, `src/Geom/DiffTensors.hpp:11-86`. -/
def normSym3 (rank powV : Nat) (Le Ri : Nat → ℝ) : Res ℝ :=
  match rank with
  | 0 => .ok (∑ k : Fin 1, Le k * Ri k * (nCombs3.getD k 0 : ℝ) ^ powV)
  | 1 => .ok (∑ k : Fin 3, Le k * Ri k * (nCombs3.getD (k + 1) 0 : ℝ) ^ powV)
  | 2 => .ok (∑ k : Fin 6, Le k * Ri k * (nCombs3.getD (k + 4) 0 : ℝ) ^ powV)
  | 3 => .ok (∑ k : Fin 10, Le k * Ri k * (nCombs3.getD (k + 10) 0 : ℝ) ^ powV)
  | _ => .abort

end DNDSR.Jet

import Verif.Model.Recon
import Verif.Model.RecIter
import Verif.Model.Gas
import Verif.Model.ODE

/-!
# The smoothness indicators (`src/CFV/VariationalReconstruction_LimiterProcedure.hxx:7-183`)

The settings and simplifications of the reconstruction's model, `Verif.Model.Recon`, hold here too: real numbers, tables of base functions computed and
not read from the cache, `maxNDOF` base functions in all cells. The build is the one without OpenMP.
-/

namespace DNDSR.SmoothInd

open DNDSR.IMap DNDSR.Faces DNDSR.Rec
open DNDSR.Jet (CellBase)
open Matrix

variable {N V : Nat}

/-- what is read of a cell: what its base functions are made of, `uRec` and `u` -/
structure CellIn (N V : Nat) where
  base : CellBase
  x : Matrix (Fin N) (Fin V) ℝ
  u : Fin V → ℝ

/-- what is read of a face: what the functional reads, the zone, the centre and the weights of `GetFaceQuadO1` -/
structure FaceData where
  fn : FaceFn
  zone : Int
  cent : Per.V3
  ws : List ℝ

/-- a face of a cell: its data, the cell on the other side and the sides (`if2c == 1`) of both -/
structure FaceIn (N V : Nat) where
  data : FaceData
  if2c : Bool
  if2cOther : Bool
  other : Option (CellIn N V)

/-- the value and derivatives at the centre of a face, `src/CFV/VariationalReconstruction_LimiterProcedure.hxx:43-45`, the same at `:50-52`, `:143-145` and
`:150-152`: `GetIntPointDiffBaseValue(iCell, iFace, -1, -1, ...) * uRec[iCell]`, and `u[iCell]` on the first row. The centre is seen from the cell,
`src/CFV/VariationalReconstruction.hpp:241-263`; the derivatives are not turned. -/
noncomputable def trace (S : Space) (W : Wrap) (order rows : Nat) (D : FaceData) (if2c : Bool) (C : CellIn N V) : Res (Nat → Fin V → ℝ) := do
  let t ← sideTable S W C.base D.zone if2c rows (S.rows order) D.cent
  .ok fun r v => (∑ j : Fin N, t r j * C.x j v) + if r = 0 then C.u v else 0

/-- half the jump and the mean of both sides; zero without a neighbour -/
noncomputable def halves (L : Nat → Fin V → ℝ) (R : Option (Nat → Fin V → ℝ)) : (Nat → Fin V → ℝ) × (Nat → Fin V → ℝ) :=
  match R with
  | none => (fun _ _ => 0, fun _ _ => 0)
  | some R => (fun r v => (L r v - R r v) * 0.5, fun r v => (L r v + R r v) * 0.5)

/-- `varsSee` picks columns -/
def pick (see : List (Fin V)) (t : Nat → Fin V → ℝ) : Tbl := fun r c => if h : c < see.length then t r see[c] else 0

/-- `IntegrationSimple`, `src/Geom/Quadrature.hpp:726-737`: `buf += acc * w` -/
noncomputable def integrate {ι : Type} (ws : List ℝ) (f : Res (ι → ℝ × ℝ)) (buf : ι → ℝ × ℝ) : Res (ι → ℝ × ℝ) :=
  ws.foldlM (fun b w => do
    let acc ← f
    pure fun c => ((b c).1 + (acc c).1 * w, (b c).2 + (acc c).2 * w)) buf

/-- the sum over the faces of a cell -/
noncomputable def sumFaces {ι : Type} (fs : List (FaceIn N V)) (term : FaceIn N V → Res (ι → ℝ × ℝ)) : Res (ι → ℝ × ℝ) :=
  fs.foldlM (fun s f => do
    let b ← integrate f.data.ws (term f) fun _ => (0, 0)
    pure fun c => ((s c).1 + (b c).1, (s c).2 + (b c).2)) fun _ => (0, 0)

/-- the integrand of `DoCalculateSmoothIndicator`, `src/CFV/VariationalReconstruction_LimiterProcedure.hxx:33-65` -/
noncomputable def term0 (S : Space) (W : Wrap) (order : Nat) (see : List (Fin V)) (C : CellIn N V) (f : FaceIn N V) : Res (Nat → ℝ × ℝ) := do
  let L ← trace S W order (S.rows order) f.data f.if2c C
  let R ← match f.other with
    | none => .ok none
    | some C' => do
      let R ← trace S W order (S.rows order) f.data f.if2cOther C'
      .ok (some R)
  let h := halves L R
  let IJI ← faceFunctional S f.data.fn (S.rows order) see.length see.length (pick see h.1) (pick see h.1)
  let ISI ← faceFunctional S f.data.fn (S.rows order) see.length see.length (pick see h.2) (pick see h.2)
  .ok fun c => (IJI c c * f.data.fn.area, ISI c c * f.data.fn.area)

/-- the largest of `n` numbers, Eigen's `maxCoeff`, which wants at least one -/
noncomputable def maxCoeff (n : Nat) (f : Nat → ℝ) : Res ℝ :=
  match n with
  | 0 => .abort
  | n + 1 => .ok ((List.range n).foldl (fun m i => max m (f (i + 1))) (f 0))

/-- `DoCalculateSmoothIndicator` in a cell, `src/CFV/VariationalReconstruction_LimiterProcedure.hxx:20-90` -/
noncomputable def cell0 (S : Space) (W : Wrap) (order : Nat) (see : List (Fin V)) (C : CellIn N V) (fs : List (FaceIn N V)) : Res ℝ := do
  let s ← sumFaces fs (term0 S W order see C)
  let sImax ← maxCoeff see.length fun c => |(s c).1 / ((s c).2 + ODE.verySmallReal ℝ)|
  .ok (√sImax * (order : ℝ) ^ 2)

/-- `FFaceFunctional` of a single value with itself -/
noncomputable def single (S : Space) (F : FaceFn) (a : ℝ) : Res ℝ := do
  let t ← faceFunctional S F 1 1 1 (fun _ _ => a) fun _ _ => a
  .ok (t 0 0)

/-- the integrand of `DoCalculateSmoothIndicatorV1`, `src/CFV/VariationalReconstruction_LimiterProcedure.hxx:134-167`; `post` is `FPost` -/
noncomputable def term1 (S : Space) (W : Wrap) (order : Nat) (post : (Fin V → ℝ) → Res (Fin V → ℝ)) (C : CellIn N V) (f : FaceIn N V) :
    Res (Fin V → ℝ × ℝ) := do
  let L ← trace S W order 1 f.data f.if2c C
  let pL ← post (L 0)
  let R ← match f.other with
    | none => .ok none
    | some C' => do
      let R ← trace S W order 1 f.data f.if2cOther C'
      let pR ← post (R 0)
      .ok (some fun _ : Nat => pR)
  let h := halves (fun _ => pL) R
  let ts ← forRanks (fun _ v => do
    let J ← single S f.data.fn (h.1 0 v)
    let M ← single S f.data.fn (h.2 0 v)
    .ok (J, M)) 0 (List.finRange V)
  .ok fun v => ((ts.getD v (0, 0)).1 * f.data.fn.area, (ts.getD v (0, 0)).2 * f.data.fn.area)

/-- `DoCalculateSmoothIndicatorV1` in a cell, `src/CFV/VariationalReconstruction_LimiterProcedure.hxx:114-180`; `wt` is `varsSee` -/
noncomputable def cell1 (S : Space) (W : Wrap) (order : Nat) (wt : Fin V → ℝ) (post : (Fin V → ℝ) → Res (Fin V → ℝ)) (C : CellIn N V)
    (fs : List (FaceIn N V)) : Res ℝ := do
  let s ← sumFaces fs (term1 S W order post C)
  let sImax ← maxCoeff V fun c => if h : c < V then |(s ⟨c, h⟩).1 / ((s ⟨c, h⟩).2 + ODE.verySmallReal ℝ) * wt ⟨c, h⟩| else 0
  .ok (√sImax * (order : ℝ) ^ 2)

/-- the `FPost` of the Euler solver, `src/Euler/EulerSolver.hxx:482-495`: all variables become the pressure. `veryLargeReal` is `3e200`,
`src/DNDS/Defines.hpp:152`. -/
noncomputable def pressurePost (d e : Nat) (gamma : ℝ) (v : Fin (d + 2 + e) → ℝ) : Res (Fin (d + 2 + e) → ℝ) :=
  if v ⟨0, by omega⟩ < ODE.verySmallReal ℝ then .ok fun _ => -(3 * 10 ^ 200) * v ⟨d + 1, by omega⟩
  else do
    let prim ← Gas.cons2prim gamma ((v ⟨0, by omega⟩, fun i => v ⟨i.1 + 1, by omega⟩, v ⟨d + 1, by omega⟩) : Gas.St ℝ d) fun i : Fin e => v ⟨d + 2 + i.1, by omega⟩
    .ok fun _ => prim.1.2.2

/-! ## A rank -/

/-- what a rank has: `NumCell()`, faces and the faces of each own cell, all that is read of cells (own and ghosts) and of faces -/
structure Rk (N V : Nat) where
  n : Nat
  faces : List Face
  c2f : List (List Int)
  cells : List (CellIn N V)
  data : List FaceData

/-- the reads of a face of a cell, with `CellFaceOther` and `CellIsFaceBack`, `src/Geom/Mesh.hpp:526-537` -/
def faceIn (s : Rk N V) (iCell : Nat) (iFace : Int) : Res (FaceIn N V) := do
  let f ← at64 s.faces iFace
  Res.assert (f.first = iCell ∨ f.second = iCell)
  let iCellOther := if f.first = iCell then f.second else f.first
  let D ← at64 s.data iFace
  if iCellOther ≠ unInit then do
    let o ← at64 s.cells iCellOther
    .ok ⟨D, !(f.first = iCell), !(f.first = iCellOther), some o⟩
  else .ok ⟨D, !(f.first = iCell), true, none⟩

/-- one of the two procedures on a rank: the new `si` of the own cells; `cell` is what is done in a cell -/
def indicator (cell : CellIn N V → List (FaceIn N V) → Res ℝ) (s : Rk N V) : Res (List ℝ) :=
  forRanks (fun _ iCell => do
    let c2f ← idx s.c2f iCell
    let C ← idx s.cells iCell
    let fs ← forRanks (fun _ iFace => faceIn s iCell iFace) 0 c2f
    cell C fs) 0 (List.range s.n)

end DNDSR.SmoothInd

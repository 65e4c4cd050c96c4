import Verif.Model.BaseValue
import Mathlib.Analysis.Real.Sqrt

/-!
# The coefficients of the variational reconstruction

Models the functional on a face, `FFaceFunctional`, `src/CFV/VariationalReconstruction.hpp:518-800`, the rows of the reconstruction system,
`ConstructRecCoeff`, `src/CFV/VariationalReconstruction.cpp:819-1167`, and the boundary terms, `GetBoundaryRHS`,
`src/CFV/VariationalReconstruction_Reconstruction.hxx:20-95`, over the real numbers, for `greenGauss1Weight == 0` (the default,
`src/CFV/VRSettings.hpp`). The tables of the base functions are computed, never read from `faceDiffBaseCache`: the cache holds the results of
the same calls, `src/CFV/VariationalReconstruction.cpp:500-560`. All cells and faces have `maxNDOF` base functions and as many derivatives,
`src/CFV/VariationalReconstruction.cpp:353-378`, `:476`.
-/

namespace DNDSR.Rec

open Matrix Jet

/-- A table: rows are derivatives, columns are base functions or variables. -/
abbrev Tbl := Nat → Nat → ℝ

/-- What depends on `dim`: the base functions, the change of coordinates, the norms of each order, the first row and the number of rows of
each order. -/
structure Space where
  base : CellBase → Per.V3 → Int → Nat → Nat → Res Tbl
  lin : Per.M3 → Nat → (Nat → ℝ) → Res (Nat → ℝ)
  norm : Nat → Nat → (Nat → ℝ) → (Nat → ℝ) → Res ℝ
  low : Nat → Nat
  rows : Nat → Nat
  /-- the number of axes, `Eigen::seq(0, dim - 1)` -/
  dim : Nat

/-- `VariationalReconstruction<2>` -/
noncomputable def space2 : Space where
  base := diffBaseValue2
  lin := linMap2
  norm := normSym2
  low := fun k => [0, 1, 3, 6].getD k 0
  rows := fun k => [1, 3, 6, 10].getD k 0
  dim := 2

/-- `VariationalReconstruction<3>` -/
noncomputable def space3 : Space where
  base := diffBaseValue3
  lin := linMap3
  norm := normSym3
  low := fun k => [0, 1, 4, 10].getD k 0
  rows := fun k => [1, 4, 10, 20].getD k 0
  dim := 3

/-- `NormSymDiffOrderTensorV<dim, k, 1>` applied to the rows of order `k`. The order is a template argument, so the only other outcome of
`norm`, an unknown order, does not arise; it counts as 0 here. -/
def orderNorm (S : Space) (k : Nat) (cI cJ : Nat → ℝ) : ℝ :=
  match S.norm k 1 (fun r => cI (S.low k + r)) (fun r => cJ (S.low k + r)) with
  | .ok v => v
  | _ => 0

/-- what `FFaceFunctional` reads of a face: `faceWeight[iFace]`, `faceAlignedScales[iFace]`, `faceMeanNorm[iFace]`, `GetFaceArea(iFace)`
and the settings of the functional, `src/CFV/VRSettings.hpp` -/
structure FaceFn where
  weight : Nat → ℝ
  scales : Per.V3
  norm : Per.V3
  area : ℝ
  baryDiff : Bool
  scaleMultiplier : ℝ
  anisotropic : Bool
  tanWeightScale : ℝ

/-- the square of the length of the first `dim` entries of the scales -/
noncomputable def scaleSq (S : Space) (F : FaceFn) : ℝ := ((List.range 3).map fun i => if h : i < 3 then
  if i < S.dim then F.scales ⟨i, h⟩ ^ 2 else 0 else 0).sum

/-- `faceLOrig`, `src/CFV/VariationalReconstruction.hpp:551-556` -/
noncomputable def faceLOrig (S : Space) (F : FaceFn) : ℝ :=
  if F.baryDiff then √(scaleSq S F) else √(scaleSq S F / S.dim)

/-- `faceL`, `src/CFV/VariationalReconstruction.hpp:557` -/
noncomputable def faceL (S : Space) (F : FaceFn) : ℝ := faceLOrig S F * F.scaleMultiplier

/-- the length of a vector -/
noncomputable def len3 (v : Per.V3) : ℝ := √(v 0 ^ 2 + v 1 ^ 2 + v 2 ^ 2)

/-- Eigen's `cross` -/
def cross3 (a b : Per.V3) : Per.V3 := ![a 1 * b 2 - a 2 * b 1, a 2 * b 0 - a 0 * b 2, a 0 * b 1 - a 1 * b 0]

/-- Eigen's `normalized`: zero stays -/
noncomputable def normalized3 (v : Per.V3) : Per.V3 := if 0 < len3 v then fun i => v i / len3 v else v

/-- `NormBuildLocalBaseV<3>`, `src/Geom/Geometric.hpp:97-118`; the result is transposed: row `k` is `base(all, k)` -/
noncomputable def localBase (n : Per.V3) : Fin 3 → Per.V3 :=
  let t := if |n 2| < 0.9 then -(normalized3 (cross3 n ![0, 0, 1])) else -(normalized3 (cross3 n ![0, 1, 0]))
  ![n, t, normalized3 (cross3 n t)]

/-- `coordTrans`, `src/CFV/VariationalReconstruction.hpp:688-700`; the first value, `:634-635`, is overwritten -/
noncomputable def coordTrans (S : Space) (F : FaceFn) : Per.M3 :=
  let areaL := if S.dim = 3 then √F.area else F.area
  let tw := 1 / min 1 (faceLOrig S F / (areaL + 0.001 * faceLOrig S F))
  fun i m => localBase F.norm i m * faceL S F * if i = 0 then 1 else tw * F.tanWeightScale

/-- the switch over `cnDiffs`, `src/CFV/VariationalReconstruction.hpp:577-657`, `:706-790`: the cases fall through; `scale k` is the factor
behind `wgd(k)` -/
noncomputable def conj (S : Space) (weight : Nat → ℝ) (scale : Nat → ℝ) (rows : Nat) (cI cJ : Nat → ℝ) : Res ℝ :=
  let wgd := fun k => weight k ^ 2
  let t0 := orderNorm S 0 cI cJ * wgd 0
  let t1 := orderNorm S 1 cI cJ * wgd 1 * scale 1
  let t2 := orderNorm S 2 cI cJ * wgd 2 * scale 2
  let t3 := orderNorm S 3 cI cJ * wgd 3 * scale 3
  if rows = S.rows 3 then .ok (0 + t3 + t2 + t1 + t0)
  else if rows = S.rows 2 then .ok (0 + t2 + t1 + t0)
  else if rows = S.rows 1 then .ok (0 + t1 + t0)
  else if rows = S.rows 0 then .ok (0 + t0)
  else .abort

/-- all entries of a matrix of results; one that aborts aborts -/
noncomputable def entries (nI nJ : Nat) (f : Nat → Nat → Res ℝ) : Res Tbl :=
  (List.range nI).foldlM (fun t i => (List.range nJ).foldlM (fun (t : Tbl) j => do
    let v ← f i j
    pure fun a b => if a = i ∧ b = j then v else t a b) t) fun _ _ => 0

/-- `FFaceFunctional`, `src/CFV/VariationalReconstruction.hpp:518-800`; `nI` and `nJ` are the numbers of columns -/
noncomputable def faceFunctional (S : Space) (F : FaceFn) (rows nI nJ : Nat) (DI DJ : Tbl) : Res Tbl :=
  if F.anisotropic then do
    let DI ← eachColumn (S.lin (coordTrans S F) rows) nI DI
    let DJ ← eachColumn (S.lin (coordTrans S F) rows) nJ DJ
    entries nI nJ fun i j => conj S F.weight (fun _ => 1) rows (fun r => DI r i) fun r => DJ r j
  else
    entries nI nJ fun i j => conj S F.weight (fun k => faceL S F ^ (k * 2)) rows (fun r => DI r i) fun r => DJ r j

/-- `Quadrature::Integration` of a matrix, `src/Geom/Quadrature.hpp:705-717`: `buf += acc * w` -/
noncomputable def integrateM (q : List QPoint) (f : QPoint → Res Tbl) (buf : Tbl) : Res Tbl :=
  q.foldlM (fun b g => do
    let acc ← f g
    pure fun i j => b i j + acc i j * g.w) buf

/-- a face of the cell: what the functional reads, `GetFaceZone`, whether the cell is the second one of the face (`if2c`), the points (in
the frame of the face) and the other cell -/
structure Side where
  F : FaceFn
  faceID : Int
  if2c : Bool
  q : List QPoint
  other : Option CellBase

/-- the mesh's periodicity: `mesh->isPeriodic` and `mesh->periodicInfo` -/
structure Wrap where
  isPeriodic : Bool
  P : Per.Periodicity

/-- `FaceIDIsPeriodicMain`, `src/Geom/BoundaryCondition.hpp:145-150` -/
def isMain (id : Int) : Bool := id == -1 || id == -2 || id == -3

/-- `GetFacePointFromCell`, `src/CFV/VariationalReconstruction.hpp:258-281` -/
noncomputable def facePoint (W : Wrap) (id : Int) (if2c : Bool) (p : Per.V3) : Res Per.V3 :=
  if !W.isPeriodic then .ok p
  else if !Per.isPeriodic id then .ok p
  else if if2c && isMain id then Per.transCoord W.P p id
  else if if2c && Per.isDonor id then Per.transCoordBack W.P p id
  else .ok p

/-- `periodicity.TransDiValueInplace<dim>` / `TransDiValueBackInplace<dim>` of the columns of the other cell,
`src/CFV/VariationalReconstruction.cpp:1011-1023`; `if2c` is the side of the cell the row belongs to -/
noncomputable def transOther (S : Space) (W : Wrap) (id : Int) (if2c : Bool) (rows cols : Nat) (t : Tbl) : Res Tbl :=
  if W.isPeriodic then
    if (if2c && isMain id) || (!if2c && Per.isDonor id) then do
      let i ← Per.slot id
      eachColumn (S.lin (W.P.rotation i) rows) cols t
    else if (if2c && Per.isDonor id) || (!if2c && isMain id) then do
      let i ← Per.slot id
      eachColumn (S.lin (W.P.rotation i)ᵀ rows) cols t
    else .ok t
  else .ok t

/-- `dbv(Eigen::all, Eigen::seq(1, Eigen::last))` of a cell at a point of a face, `src/CFV/VariationalReconstruction.hpp:475-480` -/
noncomputable def sideTable (S : Space) (W : Wrap) (C : CellBase) (id : Int) (if2c : Bool) (rows ndof : Nat) (p : Per.V3) : Res Tbl := do
  let pPhy ← facePoint W id if2c p
  let dbv ← S.base C pPhy 0 rows ndof
  .ok fun r j => dbv r (j + 1)

/-- the matrix `A` of a cell before the inverse, `src/CFV/VariationalReconstruction.cpp:857-897`; `order` is `settings.maxOrder` -/
noncomputable def cellA (S : Space) (W : Wrap) (order : Nat) (C : CellBase) (sides : List Side) : Res Tbl :=
  let n := S.rows order
  sides.foldlM (fun A s => integrateM s.q (fun g => do
    let DI ← sideTable S W C s.faceID s.if2c n n g.p
    let v ← faceFunctional S s.F n (n - 1) (n - 1) DI DI
    pure fun i j => v i j * g.det) A) fun _ _ => 0

/-- the matrix `B` of a face, `src/CFV/VariationalReconstruction.cpp:964-1072`; an external face gets an empty matrix. The other cell is not the
cell itself: for that case see `src/CFV/VariationalReconstruction.cpp:1065-1066`. -/
noncomputable def sideB (S : Space) (W : Wrap) (order : Nat) (C : CellBase) (s : Side) : Res Tbl :=
  let n := S.rows order
  if s.faceID > 0 then do
    Res.assert (s.other.isNone = true)
    .ok fun _ _ => 0
  else
    match s.other with
    | none => .ub
    | some C' => integrateM s.q (fun g => do
        let DI ← sideTable S W C s.faceID s.if2c n n g.p
        let DJ ← sideTable S W C' s.faceID (!s.if2c) n n g.p
        let DJ ← transOther S W s.faceID s.if2c n (n - 1) DJ
        let v ← faceFunctional S s.F n (n - 1) (n - 1) DI DJ
        pure fun i j => v i j * g.det) fun _ _ => 0

/-- the vector `b` of a face, `src/CFV/VariationalReconstruction.cpp:1075-1108` -/
noncomputable def sideb (S : Space) (W : Wrap) (order : Nat) (C : CellBase) (s : Side) : Res Tbl :=
  let n := S.rows order
  integrateM s.q (fun g => do
    let DI ← sideTable S W C s.faceID s.if2c 1 n g.p
    let v ← faceFunctional S s.F 1 (n - 1) 1 DI fun _ _ => 1
    pure fun i j => v i j * g.det) fun _ _ => 0

/-- what the row of a cell stores for a face: `matrixAAInvB(iCell, 1 + ic2f)` and `vectorAInvB(iCell, ic2f)`; both stay at their initial
value on external faces -/
structure Coeff (N : Nat) where
  AInvB : Matrix (Fin N) (Fin N) ℝ
  AInvb : Fin N → ℝ

/-- the loop over the faces of a list, in order -/
def eachSide {α β : Type} (f : α → Res β) : List α → Res (List β)
  | [] => .ok []
  | s :: ss => do
    let x ← f s
    let xs ← eachSide f ss
    .ok (x :: xs)

/-- a table as a matrix -/
def asMat {N M : Nat} (t : Tbl) : Matrix (Fin N) (Fin M) ℝ := fun i j => t i j

/-- the row of a cell: `A`, `AInv` and the coefficients of the faces, `src/CFV/VariationalReconstruction.cpp:844-1165`. `inv` is
`EigenLeastSquareInverse` or its filtered version, which are not modelled. -/
noncomputable def recRow (S : Space) (W : Wrap) (order N : Nat) (inv : Matrix (Fin N) (Fin N) ℝ → Matrix (Fin N) (Fin N) ℝ) (C : CellBase)
    (sides : List Side) : Res (Matrix (Fin N) (Fin N) ℝ × Matrix (Fin N) (Fin N) ℝ × List (Coeff N)) := do
  let A ← cellA S W order C sides
  let Am : Matrix (Fin N) (Fin N) ℝ := asMat A
  let Bs ← eachSide (sideB S W order C) sides
  let bs ← eachSide (sideb S W order C) sides
  let AInv := inv Am
  let cs := List.zipWith (fun (s : Side) (Bb : Tbl × Tbl) =>
    if s.faceID > 0 then (⟨0, 0⟩ : Coeff N)
    else ⟨AInv * asMat Bb.1, AInv *ᵥ fun i => Bb.2 i 0⟩) sides (Bs.zip bs)
  .ok (Am, AInv, cs)

/-- `GetBoundaryRHS`, `src/CFV/VariationalReconstruction_Reconstruction.hxx:20-95`: `x` is `uRec[iCell]`, `u` is `u[iCell]`, `bnd` is
`FBoundary` on this face, which gets the value on the inner side and the mean value -/
noncomputable def boundaryRHS {N V : Nat} (S : Space) (W : Wrap) (order : Nat) (C : CellBase) (s : Side)
    (bnd : QPoint → (Fin V → ℝ) → (Fin V → ℝ) → Fin V → ℝ) (x : Matrix (Fin N) (Fin V) ℝ) (u : Fin V → ℝ) : Res (Matrix (Fin N) (Fin V) ℝ) := do
  let n := S.rows order
  Res.assert (s.faceID > 0)
  let BCC ← integrateM s.q (fun g => do
    let dbv ← sideTable S W C s.faceID s.if2c 1 n g.p
    let uBL : Fin V → ℝ := fun v => (∑ i : Fin N, dbv 0 i * x i v) + u v
    let uBV := bnd g uBL u
    let v ← faceFunctional S s.F 1 N V dbv fun _ v => if h : v < V then uBV ⟨v, h⟩ - u ⟨v, h⟩ else 0
    pure fun i j => v i j * g.det) fun _ _ => 0
  .ok (asMat BCC)

end DNDSR.Rec

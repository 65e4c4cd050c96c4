import Verif.Model.Sweeps
import Verif.Model.DirectLU
import Verif.Model.RCM
import Mathlib.LinearAlgebra.Matrix.Module

/-!
# The direct preconditioner (`src/Geom/Mesh_Serial_Partition.cpp`, `src/Euler/EulerEvaluator.hxx`, `src/Euler/EulerSolver.hxx`)

Every rank factorizes the couplings between its own cells and solves with them; cells of other ranks enter with the values
of the last exchange.  Blocks are matrices over `K` acting on `Fin m → K`.  The build is the one without OpenMP.
-/

namespace DNDSR.Sweep

open DNDSR.IMap DNDSR.Faces
open DNDSR.Direct (LUStruct Blocks foldRes symbolic decompose solve invertDiag upd)
open Matrix
open scoped Matrix.Module

variable {m : Nat} {K : Type} [Field K] [LinearOrder K]

/-! ## The local matrix structure -/

/-- `CellFaceOther`, `src/Geom/Mesh.hpp:526-538` -/
def cellFaceOther (S : Sys m K) (iCell : Nat) (iFace : Int) : Res Int := do
  let f ← at64 S.faces iFace
  Res.assert (f.first = iCell ∨ f.second = iCell)
  .ok (if f.first = iCell then f.second else f.first)

/-- a row of `GetCell2CellFaceVLocal`, `src/Geom/Mesh_Serial_Partition.cpp:188-194`.  Rows hold natural numbers; a neighbour
that is negative and not `UnInitIndex` would be used as an index later, so it stops here. -/
def cell2cellRow (S : Sys m K) (iCell : Nat) : List Int → Res (List Nat)
  | [] => .ok []
  | iFace :: es => do
    let o ← cellFaceOther S iCell iFace
    if o ≠ unInit ∧ o < S.n then
      if o < 0 then .ub
      else do
        let r ← cell2cellRow S iCell es
        .ok (o.toNat :: r)
    else cell2cellRow S iCell es

/-- `GetCell2CellFaceVLocal` with faces, `src/Geom/Mesh_Serial_Partition.cpp:179-196` -/
def cell2cellFace (S : Sys m K) : Res (List (List Nat)) :=
  forRanks (fun _ iCell => do
    let row ← idx S.c2f iCell
    cell2cellRow S iCell row) 0 (List.range S.n)

/-- the even numbers, then the odd ones, `src/Geom/Mesh_Serial_Partition.cpp:235-241` -/
def evenOdd (n : Nat) : List Nat := (List.range n).filter (fun i => decide (i % 2 = 0)) ++ (List.range n).filter fun i => decide (i % 2 ≠ 0)

/-- `Old2New.at(New2Old.at(i)) = i`, `src/Geom/Mesh_Serial_Partition.cpp:242-244` -/
def invertTable (n2o : List Nat) : Nat → List Nat → Res (List Nat)
  | 0, o2n => .ok o2n
  | k + 1, o2n => do
    let i := n2o.length - (k + 1)
    let v ← idx n2o i
    if v < o2n.length then invertTable n2o k (o2n.set v i) else .abort

/-- `ObtainLocalFactFillOrdering`, `src/Geom/Mesh_Serial_Partition.cpp:224-324`: `Old2New`, `New2Old` and the number of
`AllreduceOneIndex` the rank takes part in.  Codes 1 to 3 call Metis and Boost: what those return is `lib`. -/
def fillOrdering (lib : Int → List (List Nat) → Res (List Nat × List Nat)) (code : Int) (adj : List (List Nat)) :
    Res (List Nat × List Nat × Nat) :=
  if adj.length = 0 then .ok ([], [], 0)
  else if code = -1 then do
    let n2o := evenOdd adj.length
    let o2n ← invertTable n2o adj.length (List.replicate adj.length 0)
    .ok (o2n, n2o, 0)
  else if code = 0 then .ok ([], [], 0)
  else if code = 1 ∨ code = 2 then do
    let t ← lib code adj
    .ok (t.1, t.2, 0)
  else if code = 3 then do
    let t ← lib code adj
    .ok (t.1, t.2, 2)
  else if code = 4 then do
    let t ← RCM.reorder (adj.map fun row => row.map Int.ofNat)
    .ok (t.old2New.map Int.toNat, t.new2Old.map Int.toNat, 2)
  else .abort

/-! ## Assembly -/

/-- the columns are the images of the unit vectors: `fluxJacobian0_Right_Times_du_AsMatrix`, `src/Euler/EulerEvaluator.hpp:709-728`,
with the factor and the periodic rotation of the columns (`src/Euler/EulerEvaluator.hxx:251-266`) inside, see `asMatrix_rotated` -/
def asMatrix (c : (Fin m → K) → Fin m → K) : Matrix (Fin m) (Fin m) K := fun a k => c (Pi.single k 1) a

/-- the last position of a cell in a row, `src/Euler/EulerEvaluator.hxx:235-238` -/
def lastIndex (v : Int) : List Nat → Nat → Option Nat → Option Nat
  | [], _, r => r
  | x :: xs, p, r => lastIndex v xs (p + 1) (if v = x then some p else r)

/-- an assignment to `LDU(iCell, pos)`, `src/Euler/EulerJacobian.hpp:180-187`, `:215-226`: diagonal, lower part, upper part -/
def setLDU (L : LUStruct) (iCell : Nat) (pos : Int) (A : Matrix (Fin m) (Fin m) K) (B : Blocks (Matrix (Fin m) (Fin m) K)) :
    Res (Blocks (Matrix (Fin m) (Fin m) K)) := do
  let lo ← idx L.lowOld iCell
  let up ← idx L.uppOld iCell
  if pos < 0 then .ub
  else if pos = 0 then .ok (B.setDiag iCell A)
  else if pos < 1 + lo.length then .ok (B.setLower iCell (pos.toNat - 1) A)
  else if pos < 1 + lo.length + up.length then .ok (B.setUpper iCell (pos.toNat - 1 - lo.length) A)
  else .ub

/-- the loop over the faces of a cell, `src/Euler/EulerEvaluator.hxx:223-267` -/
def assembleRow (S : Sys m K) (L : LUStruct) (adjRow : List Nat) (posRow : List Int) (iCell : Nat) : List Int →
    Blocks (Matrix (Fin m) (Fin m) K) → Res (Blocks (Matrix (Fin m) (Fin m) K))
  | [], B => .ok B
  | iFace :: es, B => do
    let f ← at64 S.faces iFace
    let other := if f.first = iCell then f.second else f.first
    let back := if f.first = iCell then false else true
    if other ≠ unInit ∧ other ≠ iCell ∧ other < S.n then
      match lastIndex other adjRow 0 none with
      | none => .abort
      | some p => do
        let pos ← idx posRow p
        let c ← at64 S.couple iFace
        let B' ← setLDU L iCell pos (asMatrix (c back)) B
        assembleRow S L adjRow posRow iCell es B'
    else assembleRow S L adjRow posRow iCell es B

/-- one cell, `src/Euler/EulerEvaluator.hxx:218-269` -/
def assembleCell (S : Sys m K) (J : JDiag m K) (adj : List (List Nat)) (L : LUStruct) (B : Blocks (Matrix (Fin m) (Fin m) K)) (iCell : Nat) :
    Res (Blocks (Matrix (Fin m) (Fin m) K)) := do
  let row ← idx S.c2f iCell
  let adjRow ← idx adj iCell
  let posRow ← idx L.rowPos iCell
  let B' ← assembleRow S L adjRow posRow iCell row B
  let d ← J.getValue iCell
  .ok (B'.setDiag iCell d)

/-- `setZero` and the loop of `LUSGSMatrixToJacobianLU`, `src/Euler/EulerEvaluator.hxx:214-269` -/
def assemble (S : Sys m K) (J : JDiag m K) (adj : List (List Nat)) (L : LUStruct) : Res (Blocks (Matrix (Fin m) (Fin m) K)) :=
  foldRes (assembleCell S J adj L) { diag := fun _ => 0, lower := fun _ _ => 0, upper := fun _ _ => 0, decomposed := false } (List.range S.n)

/-- `LUSGSMatrixToJacobianLU`, `src/Euler/EulerEvaluator.hxx:205-273` -/
noncomputable def toJacobianLU (S : Sys m K) (J : JDiag m K) (adj : List (List Nat)) (L : LUStruct) : Res (Blocks (Matrix (Fin m) (Fin m) K)) := do
  let B ← assemble S J adj L
  decompose invertDiag L B

/-! ## Solving -/

/-- `bBuf`, `src/Euler/EulerEvaluator.hxx:690-731` -/
def ghostRhs (S : Sys m K) (rhs x : List (Fin m → K)) : Res (List (Fin m → K)) :=
  forRanks (fun _ iCell => do
    let row ← idx S.c2f iCell
    let b ← idx rhs iCell
    rowLoop S (fun o => decide (o ≠ iCell ∧ o ≥ S.n)) iCell x row b) 0 (List.range S.n)

/-- `LUSGSMatrixSolveJacobianLU` up to the reduction, `src/Euler/EulerEvaluator.hxx:674-736`: `uIncNew`, what is left in `uInc`
(`uInc -= uIncNew`, `src/Euler/Euler.hpp:49-56`), and the sum of `componentWiseNorm1` (`src/Euler/Euler.hpp:222-236`) over own cells.
Ghost entries of `uIncNew` stay. -/
def luSolve (S : Sys m K) (L : LUStruct) (B : Blocks (Matrix (Fin m) (Fin m) K)) (rhs x tmp : List (Fin m → K)) :
    Res (List (Fin m → K) × List (Fin m → K) × (Fin m → K)) := do
  let bBuf ← ghostRhs S rhs x
  let y ← solve L B (fun i => bBuf.getD i 0) fun i => tmp.getD i 0
  let new := (List.range S.n).map y ++ tmp.drop S.n
  let diff := List.zipWith (fun a b => a - b) x new
  .ok (new, diff, ((diff.take S.n).map fun v k => |v k|).sum)

/-! ## All ranks -/

/-- what a rank has for the factorization: `cell2cellFaceVLocal`, `symLU`, `JLocalLU` -/
structure Fact (m : Nat) (K : Type) where
  adj : List (List Nat)
  L : LUStruct
  B : Blocks (Matrix (Fin m) (Fin m) K)

/-- `src/Euler/EulerSolver.hxx:64-68` on all ranks: local structure, ordering, symbolic factorization.  `ord` is the order of
the hash sets. -/
def setupAll (lib : Int → List (List Nat) → Res (List Nat × List Nat)) (ord : List Nat → List Nat) (code iluCode : Int) (rs : List (Rk m K)) :
    Res (List (List (List Nat) × LUStruct × Nat)) :=
  forRanks (fun _ (s : Rk m K) => do
    let adj ← cell2cellFace s.sys
    let t ← fillOrdering lib code adj
    let L ← symbolic ord adj t.1 t.2.1 s.sys.n iluCode
    .ok (adj, L, t.2.2)) 0 rs

/-- `LUSGSMatrixToJacobianLU` on all ranks -/
noncomputable def factorAll (ts : List (List (List Nat) × LUStruct × Nat)) (rs : List (Rk m K)) : Res (List (Fact m K)) :=
  forRanks (fun r (s : Rk m K) => do
    let t ← idx ts r
    let B ← toJacobianLU s.sys s.J t.1 t.2.1
    .ok { adj := t.1, L := t.2.1, B := B }) 0 rs

/-- one pass, `src/Euler/EulerSolver.hxx:1537-1538` without the exchange: solve, and `uTemp.SwapDataFatherSon(cxInc)` -/
def passAll (fs : List (Fact m K)) (rs : List (Rk m K)) : Res (List (Rk m K) × (Fin m → K)) := do
  let out ← forRanks (fun r (s : Rk m K) => do
    let f ← idx fs r
    let t ← luSolve s.sys f.L f.B s.rhs s.x s.tmp
    .ok (({ s with x := t.1, tmp := t.2.1 } : Rk m K), t.2.2)) 0 rs
  .ok (out.map (·.1), (out.map (·.2)).sum)

/-- `doPrecondition` with `jacobiCode` 2 and the factorization done, `src/Euler/EulerSolver.hxx:1535-1542`; the second component
is `sgsRes` -/
def directPrecondition (gc : GOM) (fs : List (Fact m K)) (rs : List (Rk m K)) : Res (List (Rk m K) × (Fin m → K)) := do
  let r1 ← passAll fs rs
  let rs1 ← pullAll gc r1.1
  let r2 ← passAll fs rs1
  let rs2 ← pullAll gc r2.1
  .ok (rs2, r2.2)

end DNDSR.Sweep

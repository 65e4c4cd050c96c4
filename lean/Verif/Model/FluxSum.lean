import Verif.Model.FacesGhost
import Mathlib.Algebra.Field.Basic
import Mathlib.Algebra.Module.Defs

/-!
# Summing face fluxes into cells (`src/Euler/EulerEvaluator_EvaluateRHS.hxx`)

The part of `EvaluateRHS` that takes the flux through every face to the right-hand side of the cells.  The flux of a
face (its quadrature, reconstruction, Riemann solver) is an input here.  Numbers are exact: `V` is the space of flux
vectors over a field `K`.  Source terms (`591-726`) are not part of this file.
-/

namespace DNDSR.Flux

open DNDSR.IMap DNDSR.Faces

/-- `FaceIDIsPeriodicMain`, `src/Geom/BoundaryCondition.hpp:145-150` -/
def isMain (id : Int) : Bool := id == -1 || id == -2 || id == -3

/-- `FaceIDIsPeriodicDonor`, `src/Geom/BoundaryCondition.hpp:152-157` -/
def isDonor (id : Int) : Bool := id == -4 || id == -5 || id == -6

/-- `FaceIDIsPeriodic`, `src/Geom/BoundaryCondition.hpp:117-125` -/
def isPeriodic (id : Int) : Bool := id == -1 || id == -2 || id == -3 || id == -4 || id == -5 || id == -6

/-- `mesh->isPeriodic` and `periodicInfo`: `TransVector` and `TransVectorBack` on the momentum components of a vector,
by the zone of the face (`src/Euler/EulerEvaluator.hpp:502-505`) -/
structure Frame (V : Type) where
  periodic : Bool
  trans : Int → V → V
  transBack : Int → V → V

/-- `UFromFace2Cell`, `src/Euler/EulerEvaluator.hpp:491-506` (called with `if2c` given) -/
def fromFace2Cell {V : Type} (fr : Frame V) (zone : Int) (if2c : Nat) (u : V) : V :=
  if !fr.periodic then u
  else if !isPeriodic zone then u
  else
    let u1 := if if2c == 1 && isMain zone then fr.trans zone u else u
    if if2c == 1 && isDonor zone then fr.transBack zone u1 else u1

/-- what a rank has besides the faces: the volumes of the cells it holds, and the flux and zone of the faces it holds -/
structure Fields (K V : Type) where
  vol : List K
  flux : List V
  zone : List Int

variable {K V : Type} [Field K] [AddCommGroup V] [Module K V]

/-- `rhs[iCell] += u / GetCellVol(iCell)`, `src/Euler/EulerEvaluator_EvaluateRHS.hxx:491` -/
def addTo (vol : List K) (rhs : List V) (iCell : Int) (u : V) : Res (List V) := do
  let w ← at64 rhs iCell
  let m ← at64 vol iCell
  .ok (rhs.set iCell.toNat (w + m⁻¹ • u))

/-- one face without OpenMP, `src/Euler/EulerEvaluator_EvaluateRHS.hxx:479-493` -/
def faceStep (fr : Frame V) (d : Fields K V) (iFace : Nat) (f : Face) (rhs : List V) : Res (List V) := do
  let flux ← idx d.flux iFace
  let zone ← idx d.zone iFace
  let rhs1 ← addTo d.vol rhs f.first (fromFace2Cell fr zone 0 flux)
  if f.second = unInit then .ok rhs1
  else addTo d.vol rhs1 f.second (fromFace2Cell fr zone 1 (-flux))

/-- the loop over the faces of the process, own and ghost, `src/Euler/EulerEvaluator_EvaluateRHS.hxx:139-493` -/
def faceLoop (fr : Frame V) (d : Fields K V) (iFace : Nat) : List Face → List V → Res (List V)
  | [], rhs => .ok rhs
  | f :: fs, rhs => do
    let rhs' ← faceStep fr d iFace f rhs
    faceLoop fr d (iFace + 1) fs rhs'

/-- the right-hand side of one rank without OpenMP: `rhs.setConstant(0.0)` (`:39`), then the loop -/
def serial (fr : Frame V) (d : Fields K V) (o : RankOut) : Res (List V) :=
  faceLoop fr d 0 o.faces (List.replicate d.vol.length 0)

/-- `CellIsFaceBack`, `src/Geom/Mesh.hpp:526-530` -/
def cellIsFaceBack (f : Face) (iCell : Int) : Res Bool := do
  Res.assert (f.first = iCell ∨ f.second = iCell)
  .ok (f.first == iCell)

/-- one entry of `cell2face` with OpenMP, `src/Euler/EulerEvaluator_EvaluateRHS.hxx:575-580` -/
def gatherStep (fr : Frame V) (d : Fields K V) (faces : List Face) (iCell iFace : Int) (acc : V) : Res V := do
  let f ← at64 faces iFace
  let back ← cellIsFaceBack f iCell
  let if2c := if back then 0 else 1
  let flux ← at64 d.flux iFace
  let zone ← at64 d.zone iFace
  let m ← at64 d.vol iCell
  .ok (acc + m⁻¹ • fromFace2Cell fr zone if2c ((if if2c = 1 then (-1 : K) else 1) • flux))

/-- the loop over the faces of a cell, `src/Euler/EulerEvaluator_EvaluateRHS.hxx:573-581` -/
def gatherRow (fr : Frame V) (d : Fields K V) (faces : List Face) (iCell : Int) : List Int → V → Res V
  | [], acc => .ok acc
  | e :: es, acc => do
    let acc' ← gatherStep fr d faces iCell e acc
    gatherRow fr d faces iCell es acc'

/-- the right-hand side of one rank with OpenMP, `src/Euler/EulerEvaluator_EvaluateRHS.hxx:567-583`; the iterations
write different entries and are run in order -/
def gather (fr : Frame V) (d : Fields K V) (nOwn : Nat) (o : RankOut) : Res (List V) := do
  let own ← forRanks (fun l row => gatherRow fr d o.faces (l : Int) row 0) 0 (o.c2f.take nOwn)
  .ok (own ++ List.replicate (d.vol.length - nOwn) 0)

/-- the sum of the flux through walls on one rank, `src/Euler/EulerEvaluator_EvaluateRHS.hxx:528-537` -/
def wallLoop (isWall : Int → Bool) (d : Fields K V) (nFaces iFace : Nat) : List Face → V → Res V
  | [], acc => .ok acc
  | _ :: fs, acc => do
    let zone ← idx d.zone iFace
    let flux ← idx d.flux iFace
    let acc' ← if isWall zone then do
        Res.assert (iFace < nFaces)
        .ok (acc - flux)
      else .ok acc
    wallLoop isWall d nFaces (iFace + 1) fs acc'

/-- all ranks, without OpenMP -/
def serialAll (fr : Frame V) (ds : List (Fields K V)) (outs : List RankOut) : Res (List (List V)) :=
  forRanks (fun _ (x : Fields K V × RankOut) => serial fr x.1 x.2) 0 (ds.zip outs)

/-- all ranks, with OpenMP -/
def gatherAll (fr : Frame V) (ds : List (Fields K V)) (ranks : List RankIn) (outs : List RankOut) : Res (List (List V)) :=
  forRanks (fun _ (x : (Fields K V × RankIn) × RankOut) => gather fr x.1.1 x.1.2.nOwn x.2) 0 ((ds.zip ranks).zip outs)

/-- `fluxWallSum` after the reduction, `src/Euler/EulerEvaluator_EvaluateRHS.hxx:728-730`; every rank gets it -/
def wallSum (isWall : Int → Bool) (ds : List (Fields K V)) (outs : List RankOut) : Res V := do
  let sums ← forRanks (fun _ (x : Fields K V × RankOut) => wallLoop isWall x.1 x.2.nFaces 0 x.2.faces 0) 0 (ds.zip outs)
  .ok sums.sum

end DNDSR.Flux

import Verif.Model.Sweeps
import Verif.Model.Recon

/-!
# The iterations of the variational reconstruction (`src/CFV/VariationalReconstruction_Reconstruction.hxx`)

The coefficients of a cell are a matrix with a row for each base function and a column for each variable, over exact numbers. What
`GetBoundaryRHS` and `GetBoundaryRHSDiff` give is an input by face: they read only the cell's own entries (`Rec.boundaryRHS`). The tests for
finite numbers are left out, and so is the branch `maxOrder == 1 && subs2ndOrder != 0`, which does not iterate. The build is the one without
OpenMP.
-/

namespace DNDSR.RecIt

open DNDSR.IMap DNDSR.Faces
open Matrix

variable {N V : Nat} {K : Type} [Field K]

/-- the members `FTransPeriodic` and `FTransPeriodicBack`; they get a matrix and treat each row as the variables of one state -/
structure Trans (V : Nat) (K : Type) where
  given : Bool
  fwd : Int → (Fin V → K) → Fin V → K
  back : Int → (Fin V → K) → Fin V → K

/-- what a rank has: `NumCell()`, faces, ghost cells, `mesh->isPeriodic`, `GetFaceZone`, `matrixAAInvB`, `vectorAInvB`, `cellAtr[].relax`, and the
boundary terms by face: `bc x u` and `bcd x dx u` -/
structure Sys (N V : Nat) (K : Type) where
  n : Nat
  faces : List Face
  c2f : List (List Int)
  ghosts : List Int
  isPeriodic : Bool
  zone : List Int
  AB : List (List (Matrix (Fin N) (Fin N) K))
  b : List (List (Fin N → K))
  relax : List K
  bc : List (Matrix (Fin N) (Fin V) K → (Fin V → K) → Matrix (Fin N) (Fin V) K)
  bcd : List (Matrix (Fin N) (Fin V) K → Matrix (Fin N) (Fin V) K → (Fin V → K) → Matrix (Fin N) (Fin V) K)

/-- the transformation of what comes from the other side, `src/CFV/VariationalReconstruction_Reconstruction.hxx:511-520`, the same lines at
`:627-636`, `:686-695`; `if2c` says that the cell is the second one of the face. A matrix is transformed row by row. -/
def transOther (T : Trans V K) (isPeriodic if2c : Bool) (faceID : Int) (w : Fin V → K) : Res (Fin V → K) :=
  if isPeriodic then do
    Res.assert (T.given = true)
    let w1 := if (if2c && Rec.isMain faceID) || (!if2c && Per.isDonor faceID) then T.fwd faceID w else w
    .ok (if (if2c && Per.isDonor faceID) || (!if2c && Rec.isMain faceID) then T.back faceID w1 else w1)
  else .ok w

/-- a matrix of results by rows -/
def eachRow (f : (Fin V → K) → Res (Fin V → K)) (M : Matrix (Fin N) (Fin V) K) : Res (Matrix (Fin N) (Fin V) K) := do
  let rows ← forRanks (fun _ k => f (M k)) 0 (List.finRange N)
  .ok fun k => rows.getD k 0

/-- the loop over the faces of a cell, `src/CFV/VariationalReconstruction_Reconstruction.hxx:501-561`, `:618-645`, `:677-704`: `acc` is the entry
that is added to; `inner` gets the number of the face in the cell, the neighbour, the side and the zone -/
def faceLoop (S : Sys N V K) (iCell : Nat)
    (inner : Nat → Int → Bool → Int → Matrix (Fin N) (Fin V) K → Res (Matrix (Fin N) (Fin V) K))
    (bnd : Int → Matrix (Fin N) (Fin V) K → Res (Matrix (Fin N) (Fin V) K)) :
    Nat → List Int → Matrix (Fin N) (Fin V) K → Res (Matrix (Fin N) (Fin V) K)
  | _, [], acc => .ok acc
  | ic2f, iFace :: es, acc => do
    let f ← at64 S.faces iFace
    let other := if f.first = iCell then f.second else f.first
    let if2c := if f.first = iCell then false else true
    let faceID ← at64 S.zone iFace
    if other ≠ unInit then do
      let acc ← inner ic2f other if2c faceID acc
      faceLoop S iCell inner bnd (ic2f + 1) es acc
    else do
      let acc ← bnd iFace acc
      faceLoop S iCell inner bnd (ic2f + 1) es acc

/-- the entry of a cell after the loop body of `DoReconstructionIter`, `src/CFV/VariationalReconstruction_Reconstruction.hxx:484-561`. `x` is `uRec`
before the cell. With `sor` the entry of `uRec` itself is added to, so that it is seen by what reads `uRec`. -/
def iterBody (T : Trans V K) (S : Sys N V K) (sor recordInc uRecIsZero : Bool) (u : List (Fin V → K)) (iCell : Nat)
    (x : List (Matrix (Fin N) (Fin V) K)) : Res (Matrix (Fin N) (Fin V) K) := do
  let relax ← idx S.relax iCell
  let xi ← idx x iCell
  let ui ← idx u iCell
  let start := if recordInc then (if uRecIsZero then 0 else xi) else ((if recordInc then 0 else 1) - relax) • xi
  let c2f ← idx S.c2f iCell
  let AB ← idx S.AB iCell
  let b ← idx S.b iCell
  let cur := fun (acc : Matrix (Fin N) (Fin V) K) => if !recordInc && sor then x.set iCell acc else x
  faceLoop S iCell (fun ic2f other if2c faceID acc => do
      let uOther ← at64 u other
      let xOther ← at64 (cur acc) other
      let uOther ← transOther T S.isPeriodic if2c faceID uOther
      let xOther ← eachRow (transOther T S.isPeriodic if2c faceID) xOther
      let bi ← idx b ic2f
      if recordInc then
        if uRecIsZero then .ok (acc - vecMulVec bi (uOther - ui))
        else do
          let Bi ← idx AB (ic2f + 1)
          .ok (acc - (Bi * xOther + vecMulVec bi (uOther - ui)))
      else do
        let Bi ← idx AB (ic2f + 1)
        .ok (acc + relax • (Bi * xOther + vecMulVec bi (uOther - ui))))
    (fun iFace acc => do
      let own ← idx (cur acc) iCell
      let bc ← at64 S.bc iFace
      let BCC := bc own ui
      if recordInc then
        if uRecIsZero then .ok acc
        else do
          let AInv ← idx AB 0
          .ok (acc - AInv * BCC)
      else do
        let AInv ← idx AB 0
        .ok (acc + relax • (AInv * BCC)))
    0 c2f start

/-- a loop over cells that writes one entry each -/
def sweep (body : Nat → List (Matrix (Fin N) (Fin V) K) → Res (Matrix (Fin N) (Fin V) K)) : List Nat → List (Matrix (Fin N) (Fin V) K) →
    Res (List (Matrix (Fin N) (Fin V) K))
  | [], x => .ok x
  | iCell :: cs, x => do
    let new ← body iCell x
    sweep body cs (x.set iCell new)

/-- `DoReconstructionIter`, `src/CFV/VariationalReconstruction_Reconstruction.hxx:448-583`: the new `uRec` and `uRecNew`; `sor` is
`settings.SORInstead`. The entries of the rank's own cells are swapped, those of ghost cells stay. -/
def iter (T : Trans V K) (S : Sys N V K) (sor putIntoNew recordInc uRecIsZero : Bool) (u : List (Fin V → K)) (x xNew : List (Matrix (Fin N) (Fin V) K)) :
    Res (List (Matrix (Fin N) (Fin V) K) × List (Matrix (Fin N) (Fin V) K)) := do
  Res.assert (recordInc = true → putIntoNew = true)
  if recordInc then do
    let y ← sweep (fun iCell _ => iterBody T S sor true uRecIsZero u iCell x) (List.range S.n) xNew
    .ok (x, y)
  else if sor then do
    let y ← sweep (iterBody T S true false uRecIsZero u) (List.range S.n) x
    if putIntoNew then .ok (xNew.take S.n ++ y.drop S.n, y.take S.n ++ xNew.drop S.n)
    else .ok (y, xNew)
  else do
    let y ← sweep (fun iCell _ => iterBody T S false false uRecIsZero u iCell x) (List.range S.n) xNew
    if !putIntoNew then .ok (y.take S.n ++ x.drop S.n, x.take S.n ++ y.drop S.n)
    else .ok (x, y)

/-- the entry of a cell in `DoReconstructionIterDiff`, `src/CFV/VariationalReconstruction_Reconstruction.hxx:614-645` -/
def diffBody (T : Trans V K) (S : Sys N V K) (u : List (Fin V → K)) (x d : List (Matrix (Fin N) (Fin V) K)) (iCell : Nat) :
    Res (Matrix (Fin N) (Fin V) K) := do
  let xi ← idx x iCell
  let di ← idx d iCell
  let ui ← idx u iCell
  let c2f ← idx S.c2f iCell
  let AB ← idx S.AB iCell
  faceLoop S iCell (fun ic2f other if2c faceID acc => do
      let dOther ← at64 d other
      let dOther ← eachRow (transOther T S.isPeriodic if2c faceID) dOther
      let Bi ← idx AB (ic2f + 1)
      .ok (acc - Bi * dOther))
    (fun iFace acc => do
      let bcd ← at64 S.bcd iFace
      let AInv ← idx AB 0
      .ok (acc - AInv * bcd xi di ui))
    0 c2f di

/-- `DoReconstructionIterDiff`, `src/CFV/VariationalReconstruction_Reconstruction.hxx:587-647`: the new `uRecNew` -/
def iterDiff (T : Trans V K) (S : Sys N V K) (u : List (Fin V → K)) (x d xNew : List (Matrix (Fin N) (Fin V) K)) :
    Res (List (Matrix (Fin N) (Fin V) K)) :=
  sweep (fun iCell _ => diffBody T S u x d iCell) (List.range S.n) xNew

/-- the entry of a cell in `DoReconstructionIterSOR`, `src/CFV/VariationalReconstruction_Reconstruction.hxx:666-705`; `y` is `uRecNew` before the
cell, whose entry is added to in place -/
def sorBody (T : Trans V K) (S : Sys N V K) (u : List (Fin V → K)) (x inc : List (Matrix (Fin N) (Fin V) K)) (iCell : Nat)
    (y : List (Matrix (Fin N) (Fin V) K)) : Res (Matrix (Fin N) (Fin V) K) := do
  let relax ← idx S.relax iCell
  let xi ← idx x iCell
  let ui ← idx u iCell
  let yi ← idx y iCell
  let di ← idx inc iCell
  let c2f ← idx S.c2f iCell
  let AB ← idx S.AB iCell
  faceLoop S iCell (fun ic2f other if2c faceID acc => do
      let yOther ← at64 (y.set iCell acc) other
      let yOther ← eachRow (transOther T S.isPeriodic if2c faceID) yOther
      let Bi ← idx AB (ic2f + 1)
      .ok (acc + relax • (Bi * yOther)))
    (fun iFace acc => do
      let bcd ← at64 S.bcd iFace
      let AInv ← idx AB 0
      .ok (acc + relax • (AInv * bcd xi acc ui)))
    0 c2f ((1 - relax) • yi + di)

/-- `DoReconstructionIterSOR`, `src/CFV/VariationalReconstruction_Reconstruction.hxx:652-706`: the new `uRecNew` -/
def iterSOR (T : Trans V K) (S : Sys N V K) (u : List (Fin V → K)) (x inc y : List (Matrix (Fin N) (Fin V) K)) (reverse : Bool) :
    Res (List (Matrix (Fin N) (Fin V) K)) :=
  sweep (sorBody T S u x inc) (Sweep.order (!reverse) S.n) y

/-! ## All ranks -/

/-- the vectors of a rank: `u`, `uRec`, `uRecNew`, and `uRecDiff` or `uRecInc` -/
structure Rk (N V : Nat) (K : Type) where
  sys : Sys N V K
  u : List (Fin V → K)
  x : List (Matrix (Fin N) (Fin V) K)
  y : List (Matrix (Fin N) (Fin V) K)
  d : List (Matrix (Fin N) (Fin V) K)

/-- `uRec.trans.startPersistentPull(); waitPersistentPull();`: own entries stay and every ghost entry becomes the entry of the rank that owns
the cell. That the messages do this is C07. -/
def pullX (gc : GOM) (rs : List (Rk N V K)) : Res (List (Rk N V K)) :=
  forRanks (fun _ s => do
    let g ← forRanks (fun _ q => do
      let p ← gc.search q
      match p with
      | none => .abort
      | some p => do
        let t ← idx rs p.1
        at64 t.x p.2) 0 s.sys.ghosts
    .ok { s with x := s.x.take s.sys.n ++ g }) 0 rs

/-- `DoReconstructionIter` on all ranks -/
def iterAll (T : Trans V K) (sor putIntoNew recordInc uRecIsZero : Bool) (rs : List (Rk N V K)) : Res (List (Rk N V K)) :=
  forRanks (fun _ (s : Rk N V K) => do
    let r ← iter T s.sys sor putIntoNew recordInc uRecIsZero s.u s.x s.y
    .ok { s with x := r.1, y := r.2 }) 0 rs

/-- `DoReconstructionIterDiff(uRec, uRecDiff, uRecNew, u, …)` on all ranks -/
def diffAll (T : Trans V K) (rs : List (Rk N V K)) : Res (List (Rk N V K)) :=
  forRanks (fun _ (s : Rk N V K) => do
    let y ← iterDiff T s.sys s.u s.x s.d s.y
    .ok { s with y := y }) 0 rs

/-- `DoReconstructionIterSOR(uRec, uRecInc, uRecNew, u, …, reverse)` on all ranks -/
def sorAll (T : Trans V K) (reverse : Bool) (rs : List (Rk N V K)) : Res (List (Rk N V K)) :=
  forRanks (fun _ (s : Rk N V K) => do
    let y ← iterSOR T s.sys s.u s.x s.d s.y reverse
    .ok { s with y := y }) 0 rs

/-- one step of `recLinearScheme == 0`, `src/Euler/EulerSolver.hxx:214-222`: an iteration in place and the exchange -/
def step (gc : GOM) (T : Trans V K) (sor : Bool) (rs : List (Rk N V K)) : Res (List (Rk N V K)) := do
  let rs ← iterAll T sor false false false rs
  pullX gc rs

/-- `k` of them -/
def steps (gc : GOM) (T : Trans V K) (sor : Bool) : Nat → List (Rk N V K) → Res (List (Rk N V K))
  | 0, rs => .ok rs
  | k + 1, rs => do
    let rs ← step gc T sor rs
    steps gc T sor k rs

end DNDSR.RecIt

import Verif.Model.FluxSum
import Verif.Model.Gas

/-!
# Time steps (`src/Euler/EulerEvaluator_EvaluateDt.hxx`)

`EvaluateDt`: the wave speed of every face, the largest step of every cell and the smallest step of all ranks.  Numbers are
real and exact.  The viscosity of a face (`muEff` plus `getMuTur`, `:934-938`) is an input: a function of the mean state and
of the mean pressure.  The gradients it may use (`:863-890`) belong to that function.  Components of the state after the
energy are left out.
-/

namespace DNDSR.Dt

open DNDSR.IMap DNDSR.Faces
open DNDSR.Gas (St St.c0 St.cv St.c4 side)
open DNDSR.Flux (Frame isMain isDonor isPeriodic)

variable {d : Nat}

/-- `UFromCell2Face`, `src/Euler/EulerEvaluator.hpp:474-489` (called with `if2c` given) -/
def fromCell2Face {V : Type} (fr : Frame V) (zone : Int) (if2c : Nat) (u : V) : V :=
  if !fr.periodic then u
  else if !isPeriodic zone then u
  else
    let u1 := if if2c == 1 && isMain zone then fr.transBack zone u else u
    if if2c == 1 && isDonor zone then fr.trans zone u1 else u1

/-- what a rank knows of a face: `GetFaceNorm(iFace, -1)`, `GetFaceArea`, `GetFaceVGrid(iFace, -1)`, `GetFaceZone`, and the
viscosity as a function of the mean state and pressure -/
structure Geo (d : Nat) where
  norm : Fin d → ℝ
  area : ℝ
  vg : Fin d → ℝ
  zone : Int
  mu : St ℝ d → ℝ → ℝ

/-- `settings.idealGasProperty.gamma` and `prGas`, and the arguments `CFL`, `MaxDt`, `UseLocaldt` -/
structure Conf where
  gamma : ℝ
  pr : ℝ
  cfl : ℝ
  maxDt : ℝ
  useLocal : Bool

/-- `lambdaFace`, `lambdaFaceC`, `lambdaFaceVis`, the common value of `lambdaFace0`, `lambdaFace123`, `lambdaFace4`, and
`deltaLambdaFace`, of one face -/
structure Lams where
  full : ℝ
  conv : ℝ
  vis : ℝ
  wave : ℝ
  delta : ℝ

/-- one face, `src/Euler/EulerEvaluator_EvaluateDt.hxx:837-977`; `R` is the state and volume of the cell on the second side, if
there is one, before `UFromCell2Face`.  `aMean`, `veloMean` and the first value of `lambdaConvection` are computed and not used. -/
noncomputable def faceLams (c : Conf) (fr : Frame (St ℝ d)) (g : Geo d) (uL : St ℝ d) (volL : ℝ) (R : Option (St ℝ d × ℝ)) : Res Lams := do
  let UL := fromCell2Face fr g.zone 0 uL
  let L := side c.gamma UL
  let UR := match R with
    | none => UL
    | some p => fromCell2Face fr g.zone 1 p.1
  let Rs := match R with
    | none => L
    | some _ => side c.gamma UR
  let uMean := match R with
    | none => UL
    | some _ => (1 / 2 : ℝ) • (UL + UR)
  Res.assert (0 < uMean.c0)
  let veloNMean := 1 / 2 * ((L.velo + Rs.velo) ⬝ᵥ g.norm)
  let veloNL := L.velo ⬝ᵥ g.norm
  let veloNR := Rs.velo ⬝ᵥ g.norm
  let vgN := g.vg ⬝ᵥ g.norm
  let pMean := (L.p + Rs.p) * (1 / 2)
  let lambdaConvection := max (√L.asqr + |veloNL - vgN|) (√Rs.asqr + |veloNR - vgN|)
  Res.assert (0 ≤ L.asqr ∧ 0 ≤ Rs.asqr)
  let muf := g.mu uMean pMean
  let lamVis := muf / uMean.c0 * max (4 / 3) (c.gamma / c.pr)
  let volR := match R with
    | none => volL
    | some p => p.2
  let v := lamVis * g.area * (1 / volL + 1 / volR)
  .ok { full := lambdaConvection + v, conv := |veloNMean - vgN| + v, vis := v, wave := lambdaConvection,
        delta := |(Rs.velo - L.velo) ⬝ᵥ g.norm| + √|Rs.asqr - L.asqr| * (7071 / 10000) }

/-- what a rank holds: states, volumes and smoothing ratios of its cells (own and ghost), its faces' data, and the array `dt` -/
structure Rk (d : Nat) where
  u : List (St ℝ d)
  vol : List ℝ
  ratio : List ℝ
  geo : List (Geo d)
  dt : List ℝ

/-- what `faceLams` is called with on a rank, `src/Euler/EulerEvaluator_EvaluateDt.hxx:839-860`, `:946-953` -/
noncomputable def lamsOf (c : Conf) (fr : Frame (St ℝ d)) (s : Rk d) (v : Nat) (f : Face) : Res Lams := do
  let g ← idx s.geo v
  let uL ← at64 s.u f.first
  let volL ← at64 s.vol f.first
  if f.second = unInit then faceLams c fr g uL volL none
  else do
    let uR ← at64 s.u f.second
    let volR ← at64 s.vol f.second
    faceLams c fr g uL volL (some (uR, volR))

/-- `lambdaCellC`, `src/Euler/EulerEvaluator_EvaluateDt.hxx:985-987` -/
noncomputable def cellLam (lams : List Lams) (geo : List (Geo d)) : List Int → ℝ → Res ℝ
  | [], acc => .ok acc
  | e :: es, acc => do
    let l ← at64 lams e
    let g ← at64 geo e
    cellLam lams geo es (acc + l.full * g.area)

/-- one cell, `src/Euler/EulerEvaluator_EvaluateDt.hxx:985-990` -/
noncomputable def cellDt (c : Conf) (s : Rk d) (lams : List Lams) (iCell : Nat) (row : List Int) : Res ℝ := do
  let lam ← cellLam lams s.geo row 0
  let vol ← idx s.vol iCell
  let ratio ← idx s.ratio iCell
  .ok (min (c.cfl * vol * ratio / (lam + 1 / 10 ^ 100)) c.maxDt)

/-- `veryLargeReal`, `src/DNDS/Defines.hpp:152` -/
noncomputable def veryLarge : ℝ := 3 * 10 ^ 200

/-- the loops of one rank, `src/Euler/EulerEvaluator_EvaluateDt.hxx:834-996`: the face values, the steps of the own cells and
`dtMin` -/
noncomputable def rankDt (c : Conf) (fr : Frame (St ℝ d)) (nOwn : Nat) (o : RankOut) (s : Rk d) : Res (List Lams × List ℝ × ℝ) := do
  let lams ← forRanks (fun v f => lamsOf c fr s v f) 0 o.faces
  let dts ← forRanks (fun l row => cellDt c s lams l row) 0 (o.c2f.take nOwn)
  .ok (lams, dts, dts.foldl min veryLarge)

/-- `MPI::Allreduce` with `MPI_MIN`, `src/Euler/EulerEvaluator_EvaluateDt.hxx:998` -/
noncomputable def allMin : List ℝ → ℝ
  | [] => 0
  | a :: l => l.foldl min a

/-- `EvaluateDt` on all ranks, `src/Euler/EulerEvaluator_EvaluateDt.hxx:824-1008`: the face values and the array `dt` of every
rank (own cells and, after them, ghosts), and `dtMinall`, which every rank gets -/
noncomputable def evaluateDt (c : Conf) (fr : Frame (St ℝ d)) (ranks : List RankIn) (outs : List RankOut) (rs : List (Rk d)) :
    Res (List (List Lams × List ℝ) × ℝ) := do
  let as ← forRanks (fun _ (x : (RankIn × RankOut) × Rk d) => rankDt c fr x.1.1.nOwn x.1.2 x.2) 0 ((ranks.zip outs).zip rs)
  let dtMinall := allMin (as.map (·.2.2))
  .ok ((as.zip rs).map fun p =>
    (p.1.1, if c.useLocal then p.1.2.1 ++ p.2.dt.drop p.1.2.1.length else p.2.dt.map fun _ => dtMinall), dtMinall)

end DNDSR.Dt

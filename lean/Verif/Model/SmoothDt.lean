import Verif.Model.TimeStep

/-!
# Smoothing of the time steps (`src/Euler/EulerEvaluator.hxx`, `src/Euler/EulerSolver.hxx`)

`dTau` of a rank is a list, own cells first, then the copies of ghost cells.  Numbers are real and exact.
-/

namespace DNDSR.Dt

open DNDSR.IMap DNDSR.Faces
open DNDSR.Flux (Frame)
open DNDSR.Gas (St)

/-- the loop over the faces of a cell in `MinSmoothDTau`, `src/Euler/EulerEvaluator.hxx:1830-1838`, with `CellFaceOther`
(`src/Geom/Mesh.hpp:526-538`): `nAdj` and `dTMean` -/
noncomputable def adjLoop (faces : List Face) (iCell : Nat) (dTau : List ℝ) : List Int → ℝ × ℝ → Res (ℝ × ℝ)
  | [], a => .ok a
  | iFace :: es, a => do
    let f ← at64 faces iFace
    Res.assert (f.first = iCell ∨ f.second = iCell)
    let other := if f.first = iCell then f.second else f.first
    if other ≠ unInit then do
      let v ← at64 dTau other
      adjLoop faces iCell dTau es (a.1 + 1, a.2 + v)
    else adjLoop faces iCell dTau es a

/-- the new step of a cell, `src/Euler/EulerEvaluator.hxx:1839-1841`; without neighbours the mean is `0.0 / 0.0`, and
`std::min(a, NaN)` is `a` -/
noncomputable def smoothed (v nAdj sum : ℝ) : ℝ :=
  let smootherCentWeight : ℝ := 1
  if nAdj = 0 then v else min v ((sum + nAdj * smootherCentWeight * v) / (nAdj * (1 + smootherCentWeight)))

/-- `MinSmoothDTau`, `src/Euler/EulerEvaluator.hxx:1818-1843`: `dTauNew` afterwards; its entries for ghost cells stay -/
noncomputable def minSmoothDTau (nOwn : Nat) (o : RankOut) (dTau dTauNew : List ℝ) : Res (List ℝ) := do
  let own ← forRanks (fun _ iCell => do
    let row ← idx o.c2f iCell
    let a ← adjLoop o.faces iCell dTau row (0, 0)
    let v ← idx dTau iCell
    .ok (smoothed v a.1 a.2)) 0 (List.range nOwn)
  .ok (own ++ dTauNew.drop nOwn)

/-- `dTau.trans.startPersistentPull(); waitPersistentPull();`: own entries stay and every ghost entry becomes the entry of the
rank that owns the cell.  That the messages do this is C07. -/
def pullDTau (gc : GOM) (ranks : List RankIn) (dts : List (List ℝ)) : Res (List (List ℝ)) :=
  forRanks (fun _ (s : RankIn × List ℝ) => do
    let g ← forRanks (fun _ q => do
      let p ← gc.search q
      match p with
      | none => .abort
      | some p => do
        let t ← idx dts p.1
        at64 t p.2) 0 s.1.cellMap.ghostIndex
    .ok (s.2.take s.1.nOwn ++ g)) 0 (ranks.zip dts)

/-- one pass of the loop, `src/Euler/EulerSolver.hxx:632-637`: `dTauTmp = dTau`, the exchange of `dTau`, `MinSmoothDTau`,
`dTau = dTauTmp` -/
noncomputable def smoothPass (gc : GOM) (ranks : List RankIn) (outs : List RankOut) (dts : List (List ℝ)) : Res (List (List ℝ)) := do
  let pulled ← pullDTau gc ranks dts
  forRanks (fun _ (s : ((RankIn × RankOut) × List ℝ) × List ℝ) => minSmoothDTau s.1.1.1.nOwn s.1.1.2 s.1.2 s.2) 0
    (((ranks.zip outs).zip pulled).zip dts)

/-- the loop, `src/Euler/EulerSolver.hxx:630-638` -/
noncomputable def smoothLoop (gc : GOM) (ranks : List RankIn) (outs : List RankOut) : Nat → List (List ℝ) → Res (List (List ℝ))
  | 0, dts => .ok dts
  | k + 1, dts => do
    let dts ← smoothPass gc ranks outs dts
    smoothLoop gc ranks outs k dts

/-- `fdtau` on all ranks, `src/Euler/EulerSolver.hxx:621-641`, after the exchange of the state: `EvaluateDt`, `nSmoothDTau` passes,
and the division by the diagonal coefficient of the time integrator -/
noncomputable def fdtau {d : Nat} (c : Conf) (fr : Frame (St ℝ d)) (gc : GOM) (ranks : List RankIn) (outs : List RankOut) (rs : List (Rk d)) (nSmoothDTau : Nat)
    (alphaDiag : ℝ) : Res (List (List ℝ)) := do
  let r ← evaluateDt c fr ranks outs rs
  let dts ← smoothLoop gc ranks outs nSmoothDTau (r.1.map (·.2))
  .ok (dts.map fun t => t.map fun v => v * (1 / alphaDiag))

end DNDSR.Dt

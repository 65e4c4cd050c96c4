import Verif.Model.GasRatio
import Verif.Model.IndexMapping
import Mathlib.Analysis.SpecialFunctions.Exp

/-!
# Limiters that keep density and pressure positive

Models `EvaluateURecBeta`, `EvaluateCellRHSAlpha`, `AssertMeanValuePP` of `src/Euler/EulerEvaluator.hxx` and `CompressRecPart`, `CompressInc`,
`AddFixedIncrement` of `src/Euler/EulerEvaluator.hpp`, with exact numbers. Of the variables behind the first `dim + 2` two are kept, `v1` and `v2`;
which of them the model checks is its `Kind`. The macros `USE_NS_SA_NUT_REDUCED_ORDER` and `USE_NS_SA_ALLOW_NEGATIVE_MEAN` are not defined, as in
`src/DNDS/Experimentals.hpp`. Loops over cells are without OpenMP; what is printed is left out.
-/

namespace DNDSR.Pos

open DNDSR.Gas
open Classical

/-- a state, or an increment: the first `dim + 2` variables, `v1` at `I4 + 1` and `v2` at `I4 + 2` -/
abbrev TU (d : Nat) := St ℝ d × ℝ × ℝ

/-- the families of `model`: `NS_SA` and `NS_SA_3D`, `NS_2EQ` and `NS_2EQ_3D`, all others -/
inductive Kind where
  | plain
  | sa
  | twoEq
deriving DecidableEq

/-- the settings: `refUPrim` at `0`, `I4`, `I4 + 1`, `I4 + 2`, `idealGasProperty.gamma`, `ppEpsIsRelaxed`, the rounded `uRecBetaCompressPower` and
`uRecAlphaCompressPower` (not negative), and the bottom of `v2`, `RANSBottomLimit * farFieldStaticValue(I4 + 2)`, for the models that have it -/
structure Cfg where
  kind : Kind
  ref0 : ℝ
  refP : ℝ
  ref1 : ℝ
  ref2 : ℝ
  gamma : ℝ
  relaxed : Bool
  betaPower : Nat
  alphaPower : Nat
  bottom : Option ℝ

/-- `rhoEps`, `src/Euler/EulerEvaluator.hxx:1349`, `:1569`, `:1630` -/
noncomputable def Cfg.rhoEps (c : Cfg) : ℝ := small * c.ref0 * (1 / 10)

/-- `pEps`, `src/Euler/EulerEvaluator.hxx:1350`, `:1570`, `:1631` -/
noncomputable def Cfg.pEps (c : Cfg) : ℝ := small * c.refP * (1 / 10)

/-- `safetyRatio`, `src/Euler/EulerEvaluator.hxx:1347`, `:1632` -/
noncomputable def safety : ℝ := 1 - 1 / 10 ^ 5

/-- `u(I4) - 0.5 * u(Seq123).squaredNorm() / u(0)`, as at `src/Euler/EulerEvaluator.hxx:1406` -/
noncomputable def eInt {d : Nat} (U : St ℝ d) : ℝ := U.c4 - 1 / 2 * (U.cv ⬝ᵥ U.cv) / U.c0

variable {d N : Nat}

/-! ## The reconstruction -/

/-- a row of `(quadBase * uRec).rowwise() + u.transpose()`: `b` has the base functions at a point, `src/Euler/EulerEvaluator.hxx:1415` -/
noncomputable def val (u : TU d) (x : Fin N → TU d) (b : Fin N → ℝ) : TU d := ∑ j, b j • x j + u

/-- what `checkRecBaseGood` asks of a row, `src/Euler/EulerEvaluator.hxx:1416-1428` -/
def goodRow (kind : Kind) (rhoEps pEps : ℝ) (w : TU d) : Prop :=
  ¬ w.1.c0 < rhoEps ∧ (kind = .sa → ¬ w.2.1 < rhoEps) ∧ (kind = .twoEq → ¬ (w.2.1 < rhoEps ∨ w.2.2 < rhoEps)) ∧ ¬ eInt w.1 < pEps

/-- `checkRecBaseGood`, `src/Euler/EulerEvaluator.hxx:1413-1430` -/
def good (kind : Kind) (rhoEps pEps : ℝ) (u : TU d) (pts : List (Fin N → ℝ)) (x : Fin N → TU d) : Prop :=
  ∀ b ∈ pts, goodRow kind rhoEps pEps (val u x b)

/-- `DownCastURecOrder` with `downCastMethod` 0, `src/CFV/VariationalReconstruction.hpp:839-917` -/
noncomputable def downCast (dim : Nat) (curOrder : Nat) (x : Fin N → TU d) : Res (Fin N → TU d) :=
  let degree2Start := if dim = 3 then 3 else 2
  let degree3Start := if dim = 3 then 9 else 5
  match curOrder with
  | 0 => .ok x
  | 1 => .ok fun j => (0 : ℝ) • x j
  | 2 => .ok fun j => if degree2Start ≤ (j : Nat) then (0 : ℝ) • x j else x j
  | 3 => .ok fun j => if degree3Start ≤ (j : Nat) then (0 : ℝ) • x j else x j
  | _ => .abort

/-- `while (curOrder > 0)`, `src/Euler/EulerEvaluator.hxx:1438-1445`: the new `uRec` and `uRecBase` -/
noncomputable def lower (kind : Kind) (rhoEps pEps : ℝ) (u : TU d) (pts : List (Fin N → ℝ)) :
    Nat → (Fin N → TU d) → (Fin N → TU d) → Res ((Fin N → TU d) × (Fin N → TU d))
  | 0, x, base => .ok (x, base)
  | o + 1, x, _ => do
    let base ← downCast d (o + 1) x
    if good kind rhoEps pEps u pts base then .ok (x, base)
    else lower kind rhoEps pEps u pts o base base

/-- the loop that makes room for a variable, `src/Euler/EulerEvaluator.hxx:1454-1456`, `:1481-1487`: `p` has the value of the base and the increment -/
noncomputable def room (eps : ℝ) (theta : ℝ) : List (ℝ × ℝ) → ℝ
  | [] => theta
  | p :: ps => room eps (if p.2 < 0 then min theta ((p.1 - eps) / (-p.2 + verySmall)) else theta) ps

/-- `if (rhoMin < rhoEps) for …`, `src/Euler/EulerEvaluator.hxx:1453`, `:1480`, `:1484` -/
noncomputable def roomIf (eps theta : ℝ) (ps : List (ℝ × ℝ)) : ℝ :=
  if ∃ p ∈ ps, p.2 + p.1 < eps then room eps theta ps else theta

/-- the loop over points for the pressure, `src/Euler/EulerEvaluator.hxx:1509-1518`: `p` has the base and the increment -/
noncomputable def thetaLoop (gamma pEps : ℝ) : List (St ℝ d × St ℝ d) → ℝ → Res ℝ
  | [], theta => .ok theta
  | p :: ps, theta =>
    if eInt (p.2 + p.1) < 2 * pEps / (gamma - 1) then do
      let t ← compressionRatio 0 p.1 p.2 pEps
      thetaLoop gamma pEps ps (min theta t)
    else thetaLoop gamma pEps ps theta

/-- what a cell gets: `uRec`, `uRecBeta`, whether it is counted, and what is reduced to `minBeta` -/
structure CellBeta (d N : Nat) where
  x : Fin N → TU d
  beta : ℝ
  limited : Bool
  forMin : ℝ

/-- `thetaP`, `src/Euler/EulerEvaluator.hxx:1504-1518` -/
noncomputable def thetaP (gamma pEps pCent : ℝ) (ps : List (St ℝ d × St ℝ d)) : Res ℝ :=
  if pCent ≤ 2 * pEps then .ok 0 else thetaLoop gamma pEps ps 1

/-- `uRecBeta` from `theta1 * thetaP`, `src/Euler/EulerEvaluator.hxx:1524-1532`: what is reduced to `minBeta`, and the factor used -/
noncomputable def betaOf (power : Nat) (t : ℝ) : ℝ × ℝ :=
  if t < 1 then
    let beta := t * (t ^ power * safety)
    (beta, if beta < 1 / 1000 then 0 else beta)
  else (1, t)

/-- the end of the loop over cells, `src/Euler/EulerEvaluator.hxx:1520-1558`; `t` is `theta1 * thetaP` -/
noncomputable def useBeta (c : Cfg) (pEps t : ℝ) (u : TU d) (pts : List (Fin N → ℝ)) (x base : Fin N → TU d) : Res (CellBeta d N) := do
  let beta := (betaOf c.betaPower t).2
  if beta < 0 then .abort
  else do
    let x := if beta < 1 then fun j => beta • (x j - base j) + base j else x
    Res.assert (∀ b ∈ pts, ¬ eInt (val u x b).1 < pEps)
    .ok ⟨x, beta, decide (t < 1), (betaOf c.betaPower t).1⟩

/-- the scaling of the variables of `NS_2EQ`, `src/Euler/EulerEvaluator.hxx:1471-1493`; `inc` has the increments at the points -/
noncomputable def scaleTwoEq (c : Cfg) (u : TU d) (pts : List (Fin N → ℝ)) (x base : Fin N → TU d) (inc : (Fin N → ℝ) → TU d) : Fin N → TU d :=
  let thetaC := roomIf (small * c.ref2) (roomIf (small * c.ref1) 1 (pts.map fun b => ((val u base b).2.1, (inc b).2.1)))
    (pts.map fun b => ((val u base b).2.2, (inc b).2.2))
  if c.kind = .twoEq ∧ thetaC < 1 then fun j => ((x j).1, (x j).2.1 * (thetaC * (9 / 10)), (x j).2.2 * (thetaC * (9 / 10))) else x

/-- how far a cell goes from `uRecBase` to `uRec`, `src/Euler/EulerEvaluator.hxx:1447-1558` -/
noncomputable def compressTo (c : Cfg) (rhoEps pEps pCent : ℝ) (u : TU d) (pts : List (Fin N → ℝ)) (x base : Fin N → TU d) : Res (CellBeta d N) := do
  let inc := fun b => ∑ j, b j • (x j - base j)
  let theta1 := roomIf rhoEps 1 (pts.map fun b => ((val u base b).1.c0, (inc b).1.c0))
  let theta ← thetaP c.gamma pEps pCent (pts.map fun b => ((val u base b).1, theta1 • (inc b).1))
  useBeta c pEps (theta1 * theta) u pts (scaleTwoEq c u pts x base inc) base

/-- the body of the loop over cells in `EvaluateURecBeta`, `src/Euler/EulerEvaluator.hxx:1381-1558`; `pts` has the base functions at the points of
the cell and of its faces, `order` is `GetCellOrder`, `toMean` the flag `EvaluateURecBeta_COMPRESS_TO_MEAN` -/
noncomputable def recBeta (c : Cfg) (rhoEps pEps : ℝ) (toMean : Bool) (u : TU d) (order : Nat) (pts : List (Fin N → ℝ)) (x : Fin N → TU d) :
    Res (CellBeta d N) := do
  Res.assert (u.1.c0 ≥ rhoEps)
  let pCent := (c.gamma - 1) * eInt u.1
  Res.assert (pCent ≥ pEps)
  if good c.kind rhoEps pEps u pts x then .ok ⟨x, 1, false, 1⟩
  else do
    let s ← lower c.kind rhoEps pEps u pts (if toMean then 1 else order) x x
    compressTo c rhoEps pEps pCent u pts s.1 s.2

/-! ## Increments -/

/-- `alphaP`, `src/Euler/EulerEvaluator.hxx:1694-1701` -/
noncomputable def alphaP (gamma : ℝ) (u inc : St ℝ d) (pNew relaxedP : ℝ) : Res ℝ :=
  if pNew < relaxedP then do
    let alphaC ← compressionRatio 0 u inc (relaxedP / (gamma - 1))
    .ok (min 1 alphaC)
  else .ok 1

/-- `cellRHSAlpha` from `alphaRho * alphaP`, `src/Euler/EulerEvaluator.hxx:1703-1710`, and whether it is counted -/
noncomputable def alphaOf (power : Nat) (t : ℝ) : ℝ × Bool := if t < 1 then (t ^ power * safety, true) else (t, false)

/-- the body of the loop over cells in `EvaluateCellRHSAlpha`, `src/Euler/EulerEvaluator.hxx:1648-1710`, with the floors of `:1630-1639`: `cellRHSAlpha`
and whether it is counted -/
noncomputable def cellAlpha (c : Cfg) (relax : ℝ) (compress : Nat) (u inc : TU d) : Res (ℝ × Bool) := do
  let rhoEps := if c.relaxed then c.rhoEps * 0 else c.rhoEps
  let pEps := if c.relaxed then c.pEps * 0 else c.pEps
  Res.assert (c.relaxed = true → relax < 1)
  Res.assert (u.1.c0 ≥ rhoEps)
  let relaxedRho := rhoEps * relax + u.1.c0 * (1 - relax)
  let alphaRho := if inc.1.c0 < 0 then min 1 ((u.1.c0 - relaxedRho) / (-inc.1.c0 - small * inc.1.c0)) else 1
  Res.assert (alphaRho ≥ 0 ∧ alphaRho ≤ 1)
  let inc := alphaRho • inc
  let uNew := u + inc
  let pNew := eInt uNew.1 * (c.gamma - 1)
  let pOld := eInt u.1 * (c.gamma - 1)
  let relaxedP := if pNew < pOld then pEps + (pOld - pEps) * (1 - relax) else pEps
  let aP ← alphaP c.gamma u.1 inc.1 pNew relaxedP
  .ok (alphaOf (compress * c.alphaPower) (alphaRho * aP))

/-- `CompressInc`, `src/Euler/EulerEvaluator.hpp:1131-1138`: the decay loop -/
noncomputable def decayLoop (u : St ℝ d) (f : ℝ) : Nat → TU d → TU d
  | 0, ret => ret
  | fuel + 1, ret =>
    let ek := 1 / 2 * ((u.cv + ret.1.cv) ⬝ᵥ (u.cv + ret.1.cv)) / (u.c0 + ret.1.c0 + verySmall)
    if ret.1.c4 + u.c4 - ek < f then decayLoop u f fuel ((1 - 1 / 10 : ℝ) • ret)
    else ret

/-- the part of `CompressInc` for an energy below the floor, `src/Euler/EulerEvaluator.hpp:1108-1152` -/
noncomputable def compressRoot (c : Cfg) (pEps : ℝ) (u : TU d) (ret : TU d) : Res (TU d) := do
  let f := pEps / (c.gamma - 1)
  let c0 := 2 * u.1.c4 * u.1.c0 - u.1.cv ⬝ᵥ u.1.cv - 2 * u.1.c0 * f
  let c1 := 2 * u.1.c4 * ret.1.c0 + 2 * u.1.c0 * ret.1.c4 - 2 * (u.1.cv ⬝ᵥ ret.1.cv) - 2 * ret.1.c0 * f
  let c2 := 2 * ret.1.c4 * ret.1.c0 - ret.1.cv ⬝ᵥ ret.1.cv
  let deltaC := c1 * c1 - 4 * c0 * c2
  Res.assert (deltaC > 0)
  let alphaL := (-√deltaC - c1) / (2 * c2)
  let alpha := max 0 (min alphaL 1)
  let ret := decayLoop u.1 f 1000 ((alpha * (99 / 100)) • ret)
  let ek := 1 / 2 * ((u.1.cv + ret.1.cv) ⬝ᵥ (u.1.cv + ret.1.cv)) / (u.1.c0 + ret.1.c0 + verySmall)
  if ret.1.c4 + u.1.c4 - ek < f * (1 / 2) then .abort else .ok ret

/-- the part of `CompressInc` for the energy, `src/Euler/EulerEvaluator.hpp:1104-1153` -/
noncomputable def compressEnergy (c : Cfg) (pEps : ℝ) (u : TU d) (ret : TU d) : Res (TU d) :=
  let ek := 1 / 2 * ((u.1.cv + ret.1.cv) ⬝ᵥ (u.1.cv + ret.1.cv)) / (u.1.c0 + ret.1.c0 + verySmall)
  if u.1.c4 + ret.1.c4 - ek ≤ pEps then compressRoot c pEps u ret else .ok ret

/-- the fix of a further variable, `src/Euler/EulerEvaluator.hpp:1159-1170`, `:1175-1186`, `:1188-1199`: its new increment; `bottom` is `1e-6` for
`NS_SA` and nothing for the others -/
noncomputable def fixVar (bottom : Option ℝ) (u ret : ℝ) : Res ℝ :=
  if u + ret < 0 then do
    Res.assert (u ≥ 0)
    let declineV := ret / (u + 1 / 10 ^ 6)
    let new := u * Real.exp declineV
    let new := match bottom with
      | some m => max m new
      | none => new
    .ok (new - u)
  else .ok ret

/-- `CompressInc`, `src/Euler/EulerEvaluator.hpp:1075-1202` -/
noncomputable def compressInc (c : Cfg) (u uInc : TU d) : Res (TU d) := do
  let rhoEps := if c.relaxed then c.rhoEps * verySmall else c.rhoEps
  let pEps := if c.relaxed then c.pEps * verySmall else c.pEps
  Res.assert (u.1.c0 > 0)
  let ret := if u.1.c0 + uInc.1.c0 ≤ rhoEps then ((rhoEps - u.1.c0) / (uInc.1.c0 - verySmall)) • uInc else uInc
  let ekOld := 1 / 2 * (u.1.cv ⬝ᵥ u.1.cv) / (u.1.c0 + verySmall)
  Res.assert (u.1.c4 - ekOld > 0)
  let ret ← compressEnergy c pEps u ret
  match c.kind with
  | .plain => .ok ret
  | .sa => do
    let r1 ← fixVar (some (1 / 10 ^ 6)) u.2.1 ret.2.1
    .ok (ret.1, r1, ret.2.2)
  | .twoEq => do
    let r1 ← fixVar none u.2.1 ret.2.1
    let r2 ← fixVar none u.2.2 ret.2.2
    .ok (ret.1, r1, r2)

/-- the body of the loop of `AddFixedIncrement`, `src/Euler/EulerEvaluator.hpp:1219-1269` -/
noncomputable def addFixed (c : Cfg) (alpha : ℝ) (u uInc : TU d) : Res (TU d) := do
  let ret ← compressInc c u (alpha • uInc)
  let u := u + ret
  match c.kind, c.bottom with
  | .twoEq, some m => .ok (u.1, u.2.1, max u.2.2 m)
  | _, _ => .ok u

/-- `AssertMeanValuePP` on a cell, `src/Euler/EulerEvaluator.hxx:1565-1615` -/
def meanGood (c : Cfg) (u : TU d) : Prop :=
  ¬ u.1.c0 < (if c.relaxed then c.rhoEps * 0 else c.rhoEps) ∧ ¬ eInt u.1 < (if c.relaxed then c.pEps * 0 else c.pEps) / (c.gamma - 1)

/-- `fincrement` on a cell, `src/Euler/EulerSolver.hxx:643-685`: `ransRelax` is `RANSRelax`, applied as there to the variables `I4` and `I4 + 1` -/
noncomputable def increment (c : Cfg) (relax ransRelax alpha : ℝ) (u inc : TU d) : Res (TU d) := do
  let a ← cellAlpha c relax 2 u inc
  let t := a.1 • inc
  let t : TU d := if c.kind = .twoEq ∧ ransRelax ≠ 1 then ((t.1.c0, t.1.cv, t.1.c4 * ransRelax), t.2.1 * ransRelax, t.2.2) else t
  let u ← addFixed c alpha u t
  Res.assert (meanGood c u)
  .ok u

/-- `CompressRecPart`, `src/Euler/EulerEvaluator.hpp:983-1073`: the value and `compressed` -/
noncomputable def compressRecPart (kind : Kind) (umean uRecInc : TU d) : TU d × Bool :=
  let ret := umean + uRecInc
  let r := if ret.1.c0 < 0 then (umean, true) else (ret, false)
  let eK := r.1.1.cv ⬝ᵥ r.1.1.cv * (1 / 2) / (verySmall + r.1.1.c0)
  let r := if r.1.1.c4 - eK < 0 then (umean, true) else r
  match kind with
  | .twoEq =>
    let r : TU d × Bool := if r.1.2.1 < 0 then ((r.1.1, umean.2.1, r.1.2.2), true) else r
    if r.1.2.2 < 0 then ((r.1.1, r.1.2.1, umean.2.2), true) else r
  | _ => r

/-! ## All ranks -/

/-- `MPI::Allreduce` with `MPI_SUM`, and with `MPI_MIN` -/
def reduceSum (l : List Nat) : Nat := l.foldl (· + ·) 0
noncomputable def reduceMin (z : ℝ) (l : List ℝ) : ℝ := l.foldl min z

/-- what a rank has of a cell: `u`, `GetCellOrder`, points, `uRec` -/
structure RecCell (d N : Nat) where
  u : TU d
  order : Nat
  pts : List (Fin N → ℝ)
  x : Fin N → TU d

/-- the floors of `EvaluateURecBeta`, `src/Euler/EulerEvaluator.hxx:1349-1372`: with `ppEpsIsRelaxed` not above half of the least mean value; `veryLargeReal` is where a rank
without cells starts -/
noncomputable def betaFloors (c : Cfg) (rs : List (List (RecCell d N))) : ℝ × ℝ :=
  if c.relaxed then
    let rhoMin := reduceMin (3 * 10 ^ 200) (rs.map fun cs => reduceMin (3 * 10 ^ 200) (cs.map fun q => q.u.1.c0))
    let pMin := reduceMin (3 * 10 ^ 200) (rs.map fun cs => reduceMin (3 * 10 ^ 200) (cs.map fun q => (c.gamma - 1) * eInt q.u.1))
    (min c.rhoEps (1 / 2 * rhoMin), min c.pEps (1 / 2 * pMin))
  else (c.rhoEps, c.pEps)

/-- `EvaluateURecBeta` on all ranks, `src/Euler/EulerEvaluator.hxx:1340-1562`: the cells of each rank, `nLim` and `betaMin` -/
noncomputable def recBetaAll (c : Cfg) (toMean : Bool) (rs : List (List (RecCell d N))) : Res (List (List (CellBeta d N)) × Nat × ℝ) := do
  let eps := betaFloors c rs
  let out ← IMap.forRanks (fun _ cs => IMap.forRanks (fun _ (q : RecCell d N) => recBeta c eps.1 eps.2 toMean q.u q.order q.pts q.x) 0 cs) 0 rs
  .ok (out, reduceSum (out.map fun cs => (cs.filter (·.limited)).length), reduceMin 1 (out.map fun cs => reduceMin 1 (cs.map (·.forMin))))

/-- `EvaluateCellRHSAlpha` on all ranks, `src/Euler/EulerEvaluator.hxx:1620-1729`: `cellRHSAlpha`, `nLim` and `alphaMin`; the flags are
`EvaluateCellRHSAlpha_MIN_IF_NOT_ONE` and `EvaluateCellRHSAlpha_MIN_ALL` -/
noncomputable def alphaAll (c : Cfg) (relax : ℝ) (compress : Nat) (minIfNotOne minAll : Bool) (rs : List (List (TU d × TU d))) :
    Res (List (List ℝ) × Nat × ℝ) := do
  let out ← IMap.forRanks (fun _ cs => IMap.forRanks (fun _ (q : TU d × TU d) => cellAlpha c relax compress q.1 q.2) 0 cs) 0 rs
  let nLim := reduceSum (out.map fun cs => (cs.filter (·.2)).length)
  let alphaMin := reduceMin 1 (out.map fun cs => reduceMin 1 ((cs.filter (·.2)).map (·.1)))
  let al := out.map fun cs => cs.map (·.1)
  let al := if minIfNotOne then al.map fun cs => cs.map fun a => if a < 1 then alphaMin else a else al
  let al := if minAll then al.map fun cs => cs.map fun _ => alphaMin else al
  .ok (al, nLim, alphaMin)

end DNDSR.Pos

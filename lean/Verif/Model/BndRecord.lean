import Verif.Model.IndexMapping
import Verif.Model.ODE
import Verif.Model.DofVec
import Mathlib.Analysis.SpecialFunctions.Trigonometric.DerivHyp

/-!
# What is recorded about the flow at a boundary (`src/Euler/EulerBC.hpp:318-545`)

`IntegrationRecorder`, `AnchorPointRecorder` and `OneDimProfile`, the functions of the evaluator that fill them
(`src/Euler/EulerEvaluator.hpp:828-874`, `src/Euler/EulerEvaluator.hxx:1846-1985`) and the distribution of nodes of
`src/Geom/Grid.hpp`.  Real numbers stand for floating point numbers; `0 / 0`, which is not a number, is `ub`.  The lists over
ranks have one entry per rank.
-/

namespace DNDSR.BRec

open DNDSR.IMap DNDSR.Dof

variable {n : Nat}

/-- `Eigen::Vector` of the values of one point -/
abbrev Val (n : Nat) := Fin n → ℝ

/-- `verySmallReal`, `src/DNDS/Defines.hpp:154` -/
noncomputable abbrev tiny : ℝ := ODE.verySmallReal ℝ

/-! ## integrals -/

/-- the data of `IntegrationRecorder`, `src/Euler/EulerBC.hpp:318-322` -/
structure Integ (n : Nat) where
  v : Val n
  div : ℝ

/-- Models `IntegrationRecorder::Reset`, `src/Euler/EulerBC.hpp:331-335`. -/
noncomputable def Integ.reset : Integ n := ⟨0, tiny⟩

/-- Models `IntegrationRecorder::Add`, `src/Euler/EulerBC.hpp:337-342`. -/
noncomputable def Integ.add (s : Integ n) (x : Val n × ℝ) : Integ n := ⟨s.v + x.1, s.div + x.2⟩

/-- Models `IntegrationRecorder::Reduce`, `src/Euler/EulerBC.hpp:344-350`, of all ranks: every rank gets the sums. -/
noncomputable def Integ.reduce (rs : List (Integ n)) : List (Integ n) :=
  rs.map fun _ => ⟨(rs.map Integ.v).foldl (· + ·) 0, (rs.map Integ.div).foldl (· + ·) 0⟩

/-- what `EvaluateRHS` does with the recorder of one zone, `src/Euler/EulerEvaluator_EvaluateRHS.hxx:62-77,540-566`: it is reset, what every face
of the zone contributes is added, and it is reduced; `faces` has the contributions of every rank. -/
noncomputable def integrate (faces : List (List (Val n × ℝ))) : List (Integ n) :=
  Integ.reduce (faces.map fun fs => fs.foldl Integ.add Integ.reset)

/-! ## anchors -/

/-- the data of `AnchorPointRecorder`, `src/Euler/EulerBC.hpp:354-360` -/
structure Anchor (n : Nat) where
  val : Val n
  dist : ℝ

/-- Models `AnchorPointRecorder::Reset`, `src/Euler/EulerBC.hpp:362`: the value stays. -/
noncomputable def Anchor.reset (s : Anchor n) : Anchor n := ⟨s.val, veryLarge⟩

/-- Models `AnchorPointRecorder::AddAnchor`, `src/Euler/EulerBC.hpp:364-368`. -/
noncomputable def Anchor.add (s : Anchor n) (x : Val n × ℝ) : Anchor n := if x.2 < s.dist then ⟨x.1, x.2⟩ else s

/-- `MPI_Allreduce` with `MPI_MINLOC` of the values `ds`, from rank `r` on: the least value, and the first rank that has it -/
noncomputable def minloc : Nat → ℝ × Nat → List ℝ → ℝ × Nat
  | _, best, [] => best
  | r, best, x :: xs => minloc (r + 1) (if x < best.1 then (x, r) else best) xs

/-- Models `AnchorPointRecorder::ObtainAnchorMPI`, `src/Euler/EulerBC.hpp:370-388`, of all ranks: the value of the rank with the least
distance is sent to every rank. -/
noncomputable def Anchor.obtain (rs : List (Anchor n)) : Res (List (Anchor n)) := do
  let d0 ← idx rs 0
  let root := (minloc 1 (d0.dist, 0) (rs.tail.map Anchor.dist)).2
  let b ← idx rs root
  .ok (rs.map fun s => ⟨b.val, s.dist⟩)

/-- Models `updateBCAnchors`, `src/Euler/EulerEvaluator.hpp:828-873`, for one zone: `old` are the recorders that the ranks have, `pts` the
states and distances at the quadrature points of the faces of the zone on every rank (`:848-869`). -/
noncomputable def updateAnchors (old : List (Anchor n)) (pts : List (List (Val n × ℝ))) : Res (List (Anchor n)) :=
  Anchor.obtain (List.zipWith (fun s ps => ps.foldl Anchor.add s.reset) old pts)

/-! ## profiles -/

/-- one interval of a profile: `div[i]` and column `i` of `v`, `src/Euler/EulerBC.hpp:429-430` -/
abbrev Bin (n : Nat) := ℝ × Val n

/-- `std::lower_bound` of sorted nodes: how many are below `x` -/
noncomputable def lowerBound (nodes : List ℝ) (x : ℝ) : Nat := (nodes.takeWhile (· < x)).length

/-- `std::upper_bound` of sorted nodes: how many are not above `x` -/
noncomputable def upperBound (nodes : List ℝ) (x : ℝ) : Nat := (nodes.takeWhile (· ≤ x)).length

/-- `Eigen`'s `setLinSpaced(size + 1, lo, hi)` -/
noncomputable def linSpaced (size : Nat) (lo hi : ℝ) : List ℝ := (List.range (size + 1)).map fun i : Nat => lo + i * ((hi - lo) / size)

/-- the equation whose solution is the steepness, `src/Geom/Grid.hpp:17-18` -/
noncomputable def steep (N : Nat) (x0 x1 d0 h : ℝ) : ℝ := -1 + Real.tanh (h - 2 * h / N) / (Real.tanh h + tiny) + d0 * 2 / (x1 - x0)

/-- Models `GetTanhDistributionBilateral`, `src/Geom/Grid.hpp:7-25`. -/
noncomputable def tanhSpaced (size : Nat) (x0 x1 d0 : ℝ) : Res (List ℝ) :=
  if ¬ (x0 < x1 ∧ 0 < size) then .abort
  else if (x1 - x0) / size ≤ d0 then .ok (linSpaced size x0 x1)
  else do
    let h ← ODE.bisectSolveLower (steep size x0 x1 d0) (1 / 10 ^ 10) 20 0 20
    let Mh := Real.tanh h
    let d := (linSpaced size (-h) h).map fun x => (Real.tanh x + Mh) / (2 * Mh) * (x1 - x0) + x0
    .ok ((d.set 0 x0).set size x1)

/-- the interval that starts at the node before `x`, `src/Euler/EulerBC.hpp:474-475,508-509` -/
noncomputable def leftBin (nodes : List ℝ) (x : ℝ) : Nat := min (nodes.length - 1 - 1) (lowerBound nodes x - 1)

/-- the body of the loop of `AddSimpleInterval`, `src/Euler/EulerBC.hpp:481-487` -/
noncomputable def addBin (nodes : List ℝ) (u : Val n) (a l r : ℝ) (bins : List (Bin n)) (i : Nat) : Res (List (Bin n)) := do
  let cL ← idx nodes i
  let cR ← idx nodes (i + 1)
  let b ← idx bins i
  let rel := max (min r cR - max l cL) 0 / (r - l)
  .ok (bins.set i (b.1 + a * rel, b.2 + (a * rel) • u))

/-- the loop of `AddSimpleInterval` -/
noncomputable def addBins (nodes : List ℝ) (u : Val n) (a l r : ℝ) : List Nat → List (Bin n) → Res (List (Bin n))
  | [], bins => .ok bins
  | i :: is, bins => do
    let bins ← addBin nodes u a l r bins i
    addBins nodes u a l r is bins

/-- Models `OneDimProfile::AddSimpleInterval`, `src/Euler/EulerBC.hpp:471-489`: `u` is the value, `a` the amount, `[l, r]` the interval. -/
noncomputable def addInterval (nodes : List ℝ) (bins : List (Bin n)) (u : Val n) (a l r : ℝ) : Res (List (Bin n)) :=
  if nodes.length < 2 ∨ l = r then .ub
  else
    let iL := leftBin nodes l
    let iR := min (nodes.length - 1) (upperBound nodes r)
    addBins nodes u a l r (List.range' iL (iR - iL)) bins

/-- a face of the zone as `updateBCProfiles` sees it, `src/Euler/EulerEvaluator.hxx:1918-1933`: the distances of its nodes from the axis, its area,
and the state of its cell in the frame of radius and angle -/
structure BFace (n : Nat) where
  radii : List ℝ
  area : ℝ
  val : Val n

/-- Models the loop over the faces of one rank in `updateBCProfiles`, `src/Euler/EulerEvaluator.hxx:1900-1934`, after `SetZero`. -/
noncomputable def addFaces (nodes : List ℝ) : List (BFace n) → List (Bin n) → Res (List (Bin n))
  | [], bins => .ok bins
  | f :: fs, bins => do
    let bins ← addInterval nodes bins f.val f.area (f.radii.foldl min veryLarge) (f.radii.foldl max (-veryLarge))
    addFaces nodes fs bins

/-- `MPI_Allreduce` with `MPI_MAX` -/
noncomputable def allMax : List ℝ → ℝ
  | [] => -veryLarge
  | a :: l => l.foldl max a

/-- Models the first part of `updateBCProfiles`, `src/Euler/EulerEvaluator.hxx:1855-1896`: the extent of the zone over all ranks, and the nodes
made for it. `divd0 = none` is `divMethod == 0`. -/
noncomputable def makeNodes (nDiv : Int) (divd0 : Option ℝ) (faces : List (List (BFace n))) : Res (List ℝ) :=
  let lo := allMin (faces.map fun fs => (fs.flatMap (·.radii)).foldl min veryLarge)
  let hi := allMax (faces.map fun fs => (fs.flatMap (·.radii)).foldl max (-veryLarge))
  let size := (max nDiv 10).toNat
  match divd0 with
  | none => .ok (linSpaced size lo hi)
  | some d0 => tanhSpaced size lo hi d0

/-- Models `OneDimProfile::Reduce`, `src/Euler/EulerBC.hpp:491-498`: sums over all ranks. -/
noncomputable def sumBins (size : Nat) (ranks : List (List (Bin n))) : List (Bin n) :=
  ranks.foldl (fun s b => List.zipWith (· + ·) s b) (List.replicate size 0)

/-- Models `updateBCProfiles`, `src/Euler/EulerEvaluator.hxx:1846-1937`, for one zone: nodes and intervals that every rank has at the end;
`faces` are the faces of the zone that every rank owns. -/
noncomputable def updateProfiles (nDiv : Int) (divd0 : Option ℝ) (faces : List (List (BFace n))) : Res (List (List ℝ × List (Bin n))) := do
  let nodes ← makeNodes nDiv divd0 faces
  let own ← forRanks (fun _ fs => addFaces nodes fs (List.replicate (nodes.length - 1) 0)) 0 faces
  .ok (faces.map fun _ => (nodes, sumBins (nodes.length - 1) own))

/-- Models `OneDimProfile::Get`, `src/Euler/EulerBC.hpp:500-504`. -/
noncomputable def get (nodes : List ℝ) (bins : List (Bin n)) (i : Nat) : Res (Val n) :=
  if i < nodes.length - 1 then do
    let b ← idx bins i
    .ok ((b.1 + tiny)⁻¹ • b.2)
  else .abort

/-- Models `OneDimProfile::GetPlain`, `src/Euler/EulerBC.hpp:506-520`. -/
noncomputable def getPlain (nodes : List ℝ) (bins : List (Bin n)) (x : ℝ) : Res (Val n) := do
  let iC := leftBin nodes x
  let vL ← idx nodes iC
  let vR ← idx nodes (iC + 1)
  let rel := max (min ((x - vL) / (vR - vL + tiny)) 1) 0
  let a ← get nodes bins (iC - 1)
  let b ← get nodes bins (min (iC + 1) (nodes.length - 1 - 1))
  let c ← get nodes bins iC
  let valL := (1 / 2 : ℝ) • (a + c)
  let valR := (1 / 2 : ℝ) • (b + c)
  .ok (rel • valR + (1 - rel) • valL)

/-- the loop of `updateBCProfilesPressureRadialEq`, `src/Euler/EulerEvaluator.hxx:1950-1961`, from interval `i` on: `p` and `b` are the
pressure rise and the values of the interval before; the rises of the intervals -/
noncomputable def rises (nodes : List ℝ) (rho vt : Fin n) : Nat → ℝ → Val n → List (Val n) → Res (List ℝ)
  | _, _, _, [] => .ok []
  | i, p, b, c :: cs => do
    let n0 ← idx nodes (i - 1)
    let n1 ← idx nodes i
    let n2 ← idx nodes (i + 1)
    let l0 := n1 - n0
    let l1 := n2 - n1
    let vt0 := b vt / b rho
    let vt1 := c vt / c rho
    let ldist := 1 / 2 * (l0 + l1)
    let vtm := (vt0 * l0 + vt1 * l1) / (l0 + l1)
    let rhom := (b rho * l0 + c rho * l1) / (l0 + l1)
    let p' := p + rhom * (vtm * vtm) / n1 * ldist
    let ps ← rises nodes rho vt (i + 1) p' c cs
    .ok (p' :: ps)

/-- Models `updateBCProfilesPressureRadialEq`, `src/Euler/EulerEvaluator.hxx:1939-1962`: `rho`, `vt`, `en` are the components 0, 2 and `I4`. -/
noncomputable def radialEq (nodes : List ℝ) (rho vt en : Fin n) (bins : List (Bin n)) : Res (List (Bin n)) :=
  let vals := bins.map fun b => (b.1 + tiny)⁻¹ • b.2
  match vals with
  | [] => .ub
  | b :: cs => do
    let ps ← rises nodes rho vt 1 0 b cs
    .ok (List.zipWith (fun v p => (1, Function.update v en p)) vals (0 :: ps))

end DNDSR.BRec

import Verif.Model.Rotation
import Mathlib.Data.Matrix.ColumnRowPartitioned
import Mathlib.Data.Matrix.Block
import Mathlib.Analysis.SpecialFunctions.Exp
import Mathlib.Data.Finset.Lattice.Fold

/-!
# Radial basis functions (`src/Geom/RadialBasisFunction.hpp`) and the nodes they move (`src/Geom/Mesh_Elevation_SmoothSolver.cpp:94-234`)

Numbers are real.  The search of the nearest points (nanoflann) and the solver of linear systems (`ldlt` of Eigen) are parameters.  The ranks are one list of nodes:
every rank pulls all the points that carry displacements.
-/

namespace DNDSR.Rbf

open DNDSR DNDSR.Rot Matrix

/-- `RBFKernelType`, `src/Geom/RadialBasisFunction.hpp:9-19` -/
inductive Kernel
  | unknown | distance | distanceA1 | inversedDistanceA1 | inversedDistanceA1Compact | gaussian | cpc2 | cpc0
  deriving DecidableEq

/-- Models `KernelIsCompact`, `src/Geom/RadialBasisFunction.hpp:31-34`. -/
def isCompact (k : Kernel) : Bool := k == .cpc0 || k == .cpc2 || k == .inversedDistanceA1Compact

/-- the comparison `RiXj < 1.0` cast to a number, `src/Geom/RadialBasisFunction.hpp:72` -/
noncomputable def below (r : ℝ) : ℝ := if r < 1 then 1 else 0

/-- Models one entry of `FRBFBasis`, `src/Geom/RadialBasisFunction.hpp:54-92`.  The unknown kernel fails there; `smoothDisp` accounts for it and the value here is never used. -/
noncomputable def phi (k : Kernel) (r : ℝ) : ℝ :=
  match k with
  | .unknown => 0
  | .distance => r
  | .distanceA1 => 1 + r
  | .inversedDistanceA1 => (1 + r)⁻¹
  | .inversedDistanceA1Compact => ((0.2 + r)⁻¹ - 1 / 1.2) * below r
  | .cpc2 => ((1 - r) ^ 2) ^ 2 * (r * 4 + 1) * below r
  | .cpc0 => (1 - r) ^ 2 * below r
  | .gaussian => Real.exp (-(r ^ 2))

/-- Models `RBFCPC2`, `src/Geom/RadialBasisFunction.hpp:94-106`: the functions of the centers at the points. -/
noncomputable def basis {ι κ : Type} (k : Kernel) (R : ℝ) (cent : ι → V3) (xs : κ → V3) : Matrix ι κ ℝ :=
  Matrix.of fun i j => phi k (Rot.norm (xs j - cent i) * (1 / R))

/-- a solver of linear systems with three right hand sides -/
structure Solver where
  solve : ∀ {ι : Type} [Fintype ι] [DecidableEq ι], Matrix ι ι ℝ → Matrix ι (Fin 3) ℝ → Matrix ι (Fin 3) ℝ

/-- the coefficients of the kernels, then the constant and the three linear ones -/
abbrev Coefs (n : Nat) := Matrix (Fin n ⊕ Fin 4) (Fin 3) ℝ

/-- Models `PT`, `src/Geom/RadialBasisFunction.hpp:112-115`. -/
def polyRows {n : Nat} (xs : Fin n → V3) : Matrix (Fin 4) (Fin n) ℝ :=
  Matrix.of fun i j => Fin.cases (motive := fun _ => ℝ) 1 (fun a => xs j a) i

/-- the system of `RBFInterpolateSolveCoefs`, `src/Geom/RadialBasisFunction.hpp:116-121` -/
noncomputable def polySystem {n : Nat} (k : Kernel) (R : ℝ) (xs : Fin n → V3) : Matrix (Fin n ⊕ Fin 4) (Fin n ⊕ Fin 4) ℝ :=
  Matrix.fromBlocks (basis k R xs xs) (polyRows xs)ᵀ (polyRows xs) 0

/-- Models `RBFInterpolateSolveCoefs`, `src/Geom/RadialBasisFunction.hpp:108-129`. -/
noncomputable def solveCoefs {n : Nat} (S : Solver) (k : Kernel) (R : ℝ) (xs : Fin n → V3) (fs : Fin n → V3) : Coefs n :=
  S.solve (polySystem k R xs) (Matrix.fromRows (Matrix.of fs) 0)

/-- Models `RBFInterpolateSolveCoefsNoPoly`, `src/Geom/RadialBasisFunction.hpp:131-142`. -/
noncomputable def solveNoPoly {n : Nat} (S : Solver) (k : Kernel) (R : ℝ) (xs : Fin n → V3) (fs : Fin n → V3) : Coefs n :=
  Matrix.fromRows (S.solve (basis k R xs xs) (Matrix.of fs)) 0

/-- the value of the interpolation at a point, `src/Geom/Mesh_Elevation_SmoothSolver.cpp:210-214` -/
noncomputable def value {n : Nat} (k : Kernel) (R : ℝ) (xs : Fin n → V3) (c : Coefs n) (q : V3) : V3 := fun j =>
  ∑ i, basis k R xs (fun _ : Unit => q) i () * c (.inl i) j + c (.inr 0) j + ∑ a : Fin 3, q a * c (.inr a.succ) j

/-- `coordBnd.rowwise().mean()`, `src/Geom/Mesh_Elevation_SmoothSolver.cpp:203` -/
noncomputable def mean {n : Nat} (xs : Fin n → V3) : V3 := (n : ℝ)⁻¹ • ∑ i, xs i

/-- `elevationInfo`, `src/Geom/Mesh.hpp:151-163`; the number of points to search is part of the search -/
structure Info where
  kernel : Kernel
  radius : ℝ

/-- `std::sqrt(outDistancesSqr.minCoeff())`, `src/Geom/Mesh_Elevation_SmoothSolver.cpp:197` -/
noncomputable def rMin {n : Nat} (h : 0 < n) (xs : Fin n → V3) (x : V3) : ℝ :=
  Real.sqrt (Finset.univ.inf' (Finset.univ_nonempty_iff.mpr ⟨⟨0, h⟩⟩) fun i => (xs i 0 - x 0) ^ 2 + (xs i 1 - x 1) ^ 2 + (xs i 2 - x 2) ^ 2)

/-- the bound of `rMin`, `src/Geom/Mesh_Elevation_SmoothSolver.cpp:201` -/
noncomputable def Info.bound (o : Info) : ℝ := (o.radius * if isCompact o.kernel then 1 else 5) ^ 2

/-- Models the displacement of one node from the points the search found, `src/Geom/Mesh_Elevation_SmoothSolver.cpp:184-216`. -/
noncomputable def smoothDisp {n : Nat} (S : Solver) (o : Info) (xs ds : Fin n → V3) (x : V3) : Res V3 :=
  if h : 0 < n then
    if rMin h xs x < o.bound then
      if o.kernel = .unknown then .abort
      else
        let c := mean xs
        let rel := fun i => xs i - c
        let coefs := solveNoPoly S o.kernel o.radius rel ds
        .ok (value o.kernel o.radius rel coefs (x - c))
    else .ok 0
  else .abort

/-- `largeReal`, `src/DNDS/Defines.hpp:153` -/
noncomputable def largeReal : ℝ := 3 * 10 ^ 10

/-- a node: its place and its entry of `coordsElevDisp` -/
structure Node where
  x : V3
  disp : V3

/-- the condition of `nodesBoundInterpolated`, `src/Geom/Mesh_Elevation_SmoothSolver.cpp:116` -/
def Node.known (p : Node) : Prop := p.disp 0 ≠ largeReal ∨ p.disp 2 = 2 * largeReal

open Classical in
/-- Models the value of a point of the interpolation, `src/Geom/Mesh_Elevation_SmoothSolver.cpp:135-136`. -/
noncomputable def Node.sample (p : Node) : V3 × V3 := (p.x, if p.disp 0 ≠ largeReal then p.disp else 0)

open Classical in
/-- Models `boundInterpCoo` and `boundInterpVal`, `src/Geom/Mesh_Elevation_SmoothSolver.cpp:113-154`. -/
noncomputable def samples (nodes : List Node) : List (V3 × V3) := (nodes.filter fun p => p.known).map Node.sample

open Classical in
/-- Models one pass of the loop over nodes, `src/Geom/Mesh_Elevation_SmoothSolver.cpp:171-219`; `near` is the search. -/
noncomputable def newDisp (S : Solver) (o : Info) (near : V3 → List (V3 × V3)) (p : Node) : Res V3 :=
  if p.known then .ok p.disp
  else smoothDisp S o (fun i => ((near p.x).get i).1) (fun i => ((near p.x).get i).2) p.x

open Classical in
/-- Models one pass of the last loop, `src/Geom/Mesh_Elevation_SmoothSolver.cpp:224-232`. -/
noncomputable def place (x d : V3) : V3 := if d 0 ≠ largeReal then x + d else x

/-- Models `ElevatedNodesSolveInternalSmooth`, `src/Geom/Mesh_Elevation_SmoothSolver.cpp:94-234`: the places of all nodes; `knn` searches a list of points, `moved` is `nTotalMoved`. -/
noncomputable def smooth (S : Solver) (o : Info) (knn : List (V3 × V3) → V3 → List (V3 × V3)) (moved : Nat) (nodes : List Node) : Res (List V3) :=
  if moved = 0 then .ok (nodes.map Node.x)
  else nodes.mapM fun p => do
    let d ← newDisp S o (knn (samples nodes)) p
    pure (place p.x d)

end DNDSR.Rbf

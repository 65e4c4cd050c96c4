import Verif.Model.Gas
import Verif.Model.Recon
import Verif.Model.LimProc

/-!
# The characteristic variables of the Euler solver's limiter (`src/Euler/EulerSolver.hxx:437-474`)

`d` is `dim`, the vectors have `d + 2` variables of the gas and `e` more. Numbers are real. The timers are left out.
-/

namespace DNDSR.CharVar

open DNDSR.Gas
open Matrix

variable {d e : Nat}

/-- `NormBuildLocalBaseV<dim>`, `src/Geom/Geometric.hpp:97-118`, of `n(Seq012)`; row `k` is `base(all, k)`. Other dimensions do not compile. -/
noncomputable def frame : (d : Nat) → (Fin 3 → ℝ) → Fin d → Fin d → ℝ
  | 2, n => ![![n 0, n 1], ![-n 1, n 0]]
  | 3, n => Rec.localBase n
  | _, _ => fun _ _ => 0

/-- `IdealGas_EulerGasLeftEigenVector`, `src/Euler/Gas.hpp:239-252`; only the entries below `d + 2` exist -/
noncomputable def gasLeft (U : St ℝ d) (gamma : ℝ) : Res (Nat → Nat → ℝ) := do
  Res.assert (0 < U.1)
  let velo := fun k : Nat => if h : k < d then U.2.1 ⟨k, h⟩ / U.1 else 0
  let vsqr := ∑ k ∈ Finset.range d, velo k * velo k
  let th := thermal U.2.2 U.1 vsqr gamma
  Res.assert (0 ≤ th.2.1)
  .ok (leftEig d velo th.2.2 (√th.2.1) gamma)

/-- `IdealGas_EulerGasRightEigenVector`, `src/Euler/Gas.hpp:224-237` -/
noncomputable def gasRight (U : St ℝ d) (gamma : ℝ) : Res (Nat → Nat → ℝ) := do
  Res.assert (0 < U.1)
  let velo := fun k : Nat => if h : k < d then U.2.1 ⟨k, h⟩ / U.1 else 0
  let vsqr := ∑ k ∈ Finset.range d, velo k * velo k
  let th := thermal U.2.2 U.1 vsqr gamma
  Res.assert (0 ≤ th.2.1)
  .ok (rightEig d velo vsqr th.2.2 (√th.2.1))

/-- entry `k` of `(UL + UR)(Seq01234) * 0.5`, `src/Euler/EulerSolver.hxx:441` -/
noncomputable def mean (UL UR : Fin (d + 2 + e) → ℝ) (k : Nat) : ℝ :=
  if h : k < d + 2 + e then (UL ⟨k, h⟩ + UR ⟨k, h⟩) * (1 / 2) else 0

/-- `UC` with the momentum in the frame of the face, `src/Euler/EulerSolver.hxx:441-443`, the same at `:460-462` -/
noncomputable def meanLocal (base : Fin d → Fin d → ℝ) (UL UR : Fin (d + 2 + e) → ℝ) : St ℝ d :=
  (mean UL UR 0, fun k => ∑ i, base k i * mean UL UR (i.1 + 1), mean UL UR (d + 1))

/-- `M(all, Seq123) *= normBase.transpose()`, `src/Euler/EulerSolver.hxx:446` -/
noncomputable def turnCols (base : Fin d → Fin d → ℝ) (M : Nat → Nat → ℝ) (i j : Nat) : ℝ :=
  if h : 1 ≤ j ∧ j - 1 < d then ∑ k, M i (k.1 + 1) * base k ⟨j - 1, h.2⟩ else M i j

/-- `M(Seq123, all) = normBase * M(Seq123, all)`, `src/Euler/EulerSolver.hxx:465` -/
noncomputable def turnRows (base : Fin d → Fin d → ℝ) (M : Nat → Nat → ℝ) (i j : Nat) : ℝ :=
  if h : 1 ≤ i ∧ i - 1 < d then ∑ k, base k ⟨i - 1, h.2⟩ * M (k.1 + 1) j else M i j

/-- `ret`, `src/Euler/EulerSolver.hxx:448-450`, the same at `:467-469`: the identity but for the variables of the gas -/
noncomputable def embed (e : Nat) (d : Nat) (M : Nat → Nat → ℝ) : Matrix (Fin (d + 2 + e)) (Fin (d + 2 + e)) ℝ :=
  fun i j => if i.1 < d + 2 ∧ j.1 < d + 2 then M i j else if i = j then 1 else 0

/-- `fML`, `src/Euler/EulerSolver.hxx:437-454` -/
noncomputable def fML (gamma : ℝ) (UL UR : Fin (d + 2 + e) → ℝ) (n : Fin 3 → ℝ) {m : Nat} (data : Matrix (Fin m) (Fin (d + 2 + e)) ℝ) :
    Res (Matrix (Fin m) (Fin (d + 2 + e)) ℝ) := do
  let M ← gasLeft (meanLocal (frame d n) UL UR) gamma
  .ok (embed e d (turnCols (frame d n) M) * dataᵀ)ᵀ

/-- `fMR`, `src/Euler/EulerSolver.hxx:456-474` -/
noncomputable def fMR (gamma : ℝ) (UL UR : Fin (d + 2 + e) → ℝ) (n : Fin 3 → ℝ) {m : Nat} (data : Matrix (Fin m) (Fin (d + 2 + e)) ℝ) :
    Res (Matrix (Fin m) (Fin (d + 2 + e)) ℝ) := do
  let M ← gasRight (meanLocal (frame d n) UL UR) gamma
  .ok (embed e d (turnRows (frame d n) M) * dataᵀ)ᵀ

/-- the value of a function that returns; the limiter procedures of the model take functions that always do, which `fML` and `fMR` are where the
mean values are those of a gas -/
def value {m k : Nat} (r : Res (Matrix (Fin m) (Fin k) ℝ)) : Matrix (Fin m) (Fin k) ℝ :=
  match r with
  | .ok x => x
  | _ => 0

/-- what the solver hands to the limiter procedures, `src/Euler/EulerSolver.hxx:500-530` -/
noncomputable def eulerEig (d e : Nat) (gamma : ℝ) : LimProc.Eig (d + 2 + e) where
  fm UL UR n _ B := value (fML gamma UL UR n B)
  fmi UL UR n _ B := value (fMR gamma UL UR n B)

end DNDSR.CharVar

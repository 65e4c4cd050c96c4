import Verif.Model.Rotation
import Verif.Model.Gas
import Mathlib.LinearAlgebra.CrossProduct

/-!
# The rotating frame (`src/Euler/EulerEvaluatorSettings.hpp:68-94`) and the sources of momentum

The program is compiled with `USE_ABS_VELO_IN_ROTATION` (`src/DNDS/Experimentals.hpp:34`): velocities are those of the inertial frame, with components along the axes of the
rotating one.  The other branch is not modelled, nor are the sources of turbulence models.
-/

namespace DNDSR.Frame

open DNDSR.Rot DNDSR.Gas Matrix

/-- `FrameConstRotation`, `src/Euler/EulerEvaluatorSettings.hpp:68-94` -/
structure Frame where
  enabled : Bool
  axis : V3
  center : V3
  rpm : ℝ

/-- Models `Omega`, `src/Euler/EulerEvaluatorSettings.hpp:74-77`. -/
noncomputable def Frame.speed (f : Frame) : ℝ := f.rpm * (2 * Real.pi / 60)

/-- Models `vOmega`, `src/Euler/EulerEvaluatorSettings.hpp:78-81`. -/
noncomputable def Frame.vOmega (f : Frame) : V3 := f.speed • f.axis

/-- Models `rVec`, `src/Euler/EulerEvaluatorSettings.hpp:82-85`. -/
def Frame.rVec (f : Frame) (r : V3) : V3 := r - (r ⬝ᵥ f.axis) • f.axis

/-- `normalized()` of Eigen: the zero vector stays -/
noncomputable def normalized (v : V3) : V3 := if 0 < Rot.norm v then (1 / Rot.norm v) • v else v

/-- Models `rtzFrame`, `src/Euler/EulerEvaluatorSettings.hpp:86-94`. -/
noncomputable def Frame.rtz (f : Frame) (r : V3) : M3 :=
  let rn := normalized (f.rVec r)
  Matrix.of fun i j => if j = 0 then rn i else if j = 1 then crossProduct f.axis rn i else f.axis i

/-- Models `ToThreeDim<dim>`, `src/Geom/Geometric.hpp:169-176`. -/
def emb {d : Nat} (v : Fin d → ℝ) : V3 := fun i => if h : i.val < d then v ⟨i.val, h⟩ else 0

/-- `(Seq012)`: the first `dim` components -/
def cut {d : Nat} (hd : d ≤ 3) (v : V3) : Fin d → ℝ := fun i => v (Fin.castLE hd i)

/-- Models `GetFaceVGrid` at a point, `src/Euler/EulerEvaluator.hpp:776-788`. -/
noncomputable def vGrid {d : Nat} (hd : d ≤ 3) (f : Frame) (x : V3) : Fin d → ℝ :=
  if f.enabled then cut hd (crossProduct f.vOmega (x - f.center)) else 0

/-- the momentum of the far field at time `t`, `src/Euler/EulerEvaluator_EvaluateDt.hxx:1510-1513`, where the zone has `frameOpt` -/
noncomputable def farMomentum {d : Nat} (hd : d ≤ 3) (f : Frame) (t : ℝ) (m : Fin d → ℝ) : Fin d → ℝ :=
  if f.enabled then cut hd (rotateAxis (t • (-f.vOmega)) *ᵥ emb m) else m

/-- the entries of the Jacobian that `source` writes: from momentum to momentum, and from momentum to energy; the others are zero -/
structure Jac (d : Nat) where
  mm : Matrix (Fin d) (Fin d) ℝ
  em : Fin d → ℝ

/-- the Jacobian as a matrix that acts on the conservative variables -/
def Jac.act {d : Nat} (J : Jac d) (U : St ℝ d) : St ℝ d := (0, J.mm *ᵥ U.cv, J.em ⬝ᵥ U.cv)

/-- Models `source` without turbulence, mode 0, `src/Euler/EulerEvaluator_EvaluateDt.hxx:1319-1350`: `force` is `constMassForce`. -/
noncomputable def source {d : Nat} (hd : d ≤ 3) (f : Frame) (force : V3) (U : St ℝ d) : St ℝ d :=
  let mom := U.c0 • cut hd force
  let en := cut hd force ⬝ᵥ U.cv
  let mom := if f.enabled then mom - cut hd (crossProduct f.vOmega (emb U.cv)) else mom
  (0, mom, en)

/-- Models `source` without turbulence, the Jacobian of mode 2, `src/Euler/EulerEvaluator_EvaluateDt.hxx:1328-1350`. -/
noncomputable def jacobian {d : Nat} (hd : d ≤ 3) (f : Frame) (force : V3) : Jac d :=
  let em := -cut hd force
  let mm := if f.enabled then -(crossVecToMat (-f.vOmega)).submatrix (Fin.castLE hd) (Fin.castLE hd) else 0
  ⟨mm, em⟩

end DNDSR.Frame

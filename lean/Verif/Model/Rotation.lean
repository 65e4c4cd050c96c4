import Verif.Model.Basic
import Mathlib.Data.Matrix.Mul
import Mathlib.LinearAlgebra.Matrix.Notation
import Mathlib.Analysis.SpecialFunctions.Trigonometric.Basic
import Mathlib.Analysis.Real.Sqrt

/-!
# Rotation matrices (`src/Geom/Geometric.hpp:116-170`)

Angles and matrices are over the real numbers; `sin`, `cos` and `pi` are exact.
-/

namespace DNDSR.Rot

open Matrix

abbrev M3 := Matrix (Fin 3) (Fin 3) ℝ
abbrev V3 := Fin 3 → ℝ

/-- Models `RotZ`, `src/Geom/Geometric.hpp:119-125`; the angle is in degrees. -/
noncomputable def rotZ (theta : ℝ) : M3 :=
  let t := theta * (Real.pi / 180)
  !![Real.cos t, -Real.sin t, 0; Real.sin t, Real.cos t, 0; 0, 0, 1]

/-- Models `RotX`, `src/Geom/Geometric.hpp:127-133`. -/
noncomputable def rotX (theta : ℝ) : M3 :=
  let t := theta * (Real.pi / 180)
  !![1, 0, 0; 0, Real.cos t, -Real.sin t; 0, Real.sin t, Real.cos t]

/-- Models `RotY`, `src/Geom/Geometric.hpp:135-142`. -/
noncomputable def rotY (theta : ℝ) : M3 :=
  let t := theta * (Real.pi / 180)
  !![Real.cos t, 0, Real.sin t; 0, 1, 0; -Real.sin t, 0, Real.cos t]

/-- `smallReal`, `src/DNDS/Defines.hpp:155` -/
noncomputable def smallReal : ℝ := 1 / 10 ^ 10

/-- Models `CrossVecToMat`, `src/Geom/Geometric.hpp:157-162`. -/
def crossVecToMat (a : V3) : M3 := !![0, -a 2, a 1; a 2, 0, -a 0; -a 1, a 0, 0]

/-- Models `CrossMatToVec`, `src/Geom/Geometric.hpp:164-167`. -/
def crossMatToVec (m : M3) : V3 := ![m 2 1, m 0 2, m 1 0]

/-- `axis.norm()` -/
noncomputable def norm (a : V3) : ℝ := Real.sqrt (a 0 ^ 2 + a 1 ^ 2 + a 2 ^ 2)

/-- the sum that `RotateAxis` returns, `src/Geom/Geometric.hpp:151-154`, for the normalized axis and the sine and cosine of the angle -/
def turn (n : V3) (s c : ℝ) : M3 :=
  let omega : M3 := !![0, -n 2, n 1; n 2, 0, -n 0; -n 1, n 0, 0]
  vecMulVec n n + s • omega - c • (omega * omega)

open Classical in
/-- Models `RotateAxis`, `src/Geom/Geometric.hpp:145-155`; the angle is in radians. -/
noncomputable def rotateAxis (axis : V3) : M3 :=
  let theta := norm axis
  if theta < smallReal then 1 else turn ((1 / theta) • axis) (Real.sin theta) (Real.cos theta)

end DNDSR.Rot

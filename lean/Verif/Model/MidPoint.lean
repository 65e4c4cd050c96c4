import Verif.Model.RotFrame

/-!
# Points in the middle of curved edges and faces (`src/Geom/Mesh_Elevation.cpp:584-611`)

Over the real numbers `stableNorm` and `stableNormalized` are the norm and `normalized`.
-/

namespace DNDSR.Mid

open DNDSR.Rot Matrix

/-- Models the tangents `t0` and `t1` of `HermiteInterpolateMidPointOnLine2WithNorm`, `src/Geom/Mesh_Elevation.cpp:586-592`. -/
noncomputable def tangent (c0 c1 n : V3) : V3 :=
  let c01 := c1 - c0
  let u := Frame.normalized c01
  let t := crossProduct (-(crossProduct u n)) n
  Rot.norm c01 • Frame.normalized t

open Classical in
/-- Models `HermiteInterpolateMidPointOnLine2WithNorm`, `src/Geom/Mesh_Elevation.cpp:584-600`. -/
noncomputable def midLine (c0 c1 n0 n1 : V3) : V3 :=
  let t0 := tangent c0 c1 n0
  let t1 := tangent c0 c1 n1
  if Rot.norm n0 = 0 ∧ Rot.norm n1 ≠ 0 then (0.25 : ℝ) • c0 + (0.75 : ℝ) • c1 - (0.25 : ℝ) • t1
  else if Rot.norm n0 ≠ 0 ∧ Rot.norm n1 = 0 then (0.75 : ℝ) • c0 + (0.25 : ℝ) • c1 + (0.25 : ℝ) • t0
  else if Rot.norm n0 = 0 ∧ Rot.norm n1 = 0 then (0.5 : ℝ) • (c0 + c1)
  else (0.5 : ℝ) • (c0 + c1) + (0.125 : ℝ) • (t0 - t1)

/-- Models `HermiteInterpolateMidPointOnQuad4WithNorm`, `src/Geom/Mesh_Elevation.cpp:602-611`. -/
noncomputable def midQuad (c0 c1 c2 c3 n0 n1 n2 n3 : V3) : V3 :=
  let c01 := midLine c0 c1 n0 n1
  let c12 := midLine c1 c2 n1 n2
  let c23 := midLine c2 c3 n2 n3
  let c30 := midLine c3 c0 n3 n0
  (0.5 : ℝ) • (c01 + c12 + c23 + c30) - (0.25 : ℝ) • (c0 + c1 + c2 + c3)

end DNDSR.Mid

import Verif.Model.Rotation
import Verif.Model.Periodic

/-!
# Turning and scaling the mesh (`src/Euler/EulerSolver_Init.hxx:30-50,246-302`)

Of a mesh we keep the coordinates of the nodes of a rank, its own ones and copies, and the periodic transformations.
-/

namespace DNDSR.Move

open DNDSR.Rot DNDSR.Per Matrix

/-- the members `coords` and `periodicInfo` of a mesh -/
structure Grid where
  coords : List Rot.V3
  info : Periodicity

/-- the settings of `boundaryDefinition` -/
structure PeriodicConfig where
  translation1 : Rot.V3
  translation2 : Rot.V3
  translation3 : Rot.V3
  center1 : Rot.V3
  center2 : Rot.V3
  center3 : Rot.V3
  angles1 : Rot.V3
  angles2 : Rot.V3
  angles3 : Rot.V3

/-- the product of `src/Euler/EulerSolver_Init.hxx:37-40` -/
noncomputable def euler (a : Rot.V3) : Rot.M3 := rotZ (a 2) * rotY (a 1) * rotX (a 0)

/-- Models `src/Euler/EulerSolver_Init.hxx:31-48`: entry 0 keeps what it had. -/
noncomputable def configure (cfg : PeriodicConfig) (P : Periodicity) : Periodicity where
  translation := ![P.translation 0, cfg.translation1, cfg.translation2, cfg.translation3]
  rotationCenter := ![P.rotationCenter 0, cfg.center1, cfg.center2, cfg.center3]
  rotation := ![P.rotation 0, euler cfg.angles1, euler cfg.angles2, euler cfg.angles3]

/-- Models `TransformCoords`, `src/Geom/Mesh.hpp:575-580`. -/
def transformCoords (g : Grid) (f : Rot.V3 → Rot.V3) : Grid := { g with coords := g.coords.map f }

/-- the settings of `dataIOControl`; the bits of `rectifyNearPlane` are given one by one -/
structure Config where
  meshRotZ : ℝ
  meshScale : ℝ
  rectify : Fin 3 → Bool
  rectifyThres : ℝ

/-- `Rz`, `src/Euler/EulerSolver_Init.hxx:248-253` -/
noncomputable def rz (deg : ℝ) : Rot.M3 :=
  let t := deg / 180 * Real.pi
  !![Real.cos t, -Real.sin t, 0; Real.sin t, Real.cos t, 0; 0, 0, 1]

open Classical in
/-- Models `src/Euler/EulerSolver_Init.hxx:246-268`: the mesh and its boundary mesh. -/
noncomputable def rotateStep (cfg : Config) (g : Grid × Grid) : Grid × Grid :=
  if cfg.meshRotZ ≠ 0 then
    let R := rz cfg.meshRotZ
    let m := transformCoords g.1 (fun p => R *ᵥ p)
    let b := transformCoords g.2 (fun p => R *ᵥ p)
    ({ m with info := { rotation := fun i => R * m.info.rotation i * Rᵀ, rotationCenter := fun i => R *ᵥ m.info.rotationCenter i,
                        translation := fun i => R *ᵥ m.info.translation i } }, b)
  else g

open Classical in
/-- Models `src/Euler/EulerSolver_Init.hxx:269-284`. -/
noncomputable def scaleStep (cfg : Config) (g : Grid × Grid) : Grid × Grid :=
  if cfg.meshScale ≠ 1 then
    let m := transformCoords g.1 (fun p => cfg.meshScale • p)
    let b := transformCoords g.2 (fun p => cfg.meshScale • p)
    ({ m with info := { m.info with rotationCenter := fun i => cfg.meshScale • m.info.rotationCenter i,
                                    translation := fun i => cfg.meshScale • m.info.translation i } }, b)
  else g

open Classical in
/-- `fTrans`, `src/Euler/EulerSolver_Init.hxx:287-299` -/
noncomputable def nearPlane (cfg : Config) (p : Rot.V3) : Rot.V3 := fun i => if cfg.rectify i = true ∧ |p i| < cfg.rectifyThres then 0 else p i

/-- Models `src/Euler/EulerSolver_Init.hxx:285-302`. -/
noncomputable def rectifyStep (cfg : Config) (g : Grid × Grid) : Grid × Grid :=
  if cfg.rectify 0 || cfg.rectify 1 || cfg.rectify 2 then (transformCoords g.1 (nearPlane cfg), transformCoords g.2 (nearPlane cfg)) else g

/-- Models `src/Euler/EulerSolver_Init.hxx:238,246-302` after the boundary mesh is made, which copies the transformations (`src/Geom/Mesh.cpp:1887-1890`). Symmetry planes,
lines 303-330, are not modelled. -/
noncomputable def prepare (cfg : Config) (mesh : Grid) (bndCoords : List Rot.V3) : Grid × Grid :=
  rectifyStep cfg (scaleStep cfg (rotateStep cfg (mesh, ⟨bndCoords, mesh.info⟩)))

end DNDSR.Move

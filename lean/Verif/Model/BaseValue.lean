import Verif.Model.DiffTensors

/-!
# The base functions of a cell

Models `FDiffBaseValue` and the moments of the base functions, `src/CFV/VariationalReconstruction.hpp:373-427` and
`src/CFV/VariationalReconstruction.cpp:390-409`, over the real numbers.
-/

namespace DNDSR.Jet

open Matrix

/-- What the base functions of one cell depend on: the cell's entries of `cellCent`, `cellAlignedHBox`, `cellMajorHBox`, `cellMajorCoord`,
`cellBaseMoment` and the two settings, `src/CFV/VariationalReconstruction.hpp:49-61`, `src/CFV/VRSettings.hpp`. -/
structure CellBase where
  cent : Per.V3
  alignedHBox : Per.V3
  majorHBox : Per.V3
  majorCoord : Per.M3
  moment : Nat → ℝ
  localOrientation : Bool
  anisotropicLengths : Bool

/-- Models `simpleScale`, `src/CFV/VariationalReconstruction.hpp:386-393`, `404-411`, in two dimensions. -/
noncomputable def simpleScale2 (C : CellBase) : Per.V3 :=
  let s := if C.localOrientation then C.majorHBox else C.alignedHBox
  if C.anisotropicLengths then s
  else fun i => if i = 2 then s 2 else max (s 0) (s 1)

/-- Models `simpleScale`, `src/CFV/VariationalReconstruction.hpp:386-393`, `404-411`, in three dimensions. -/
noncomputable def simpleScale3 (C : CellBase) : Per.V3 :=
  let s := if C.localOrientation then C.majorHBox else C.alignedHBox
  if C.anisotropicLengths then s
  else fun _ => max (max (s 0) (s 1)) (s 2)

/-- Models the subtraction of the moments, `src/CFV/VariationalReconstruction.hpp:422-426`. -/
noncomputable def subMoment (C : CellBase) (flag : Int) (t : Nat → Nat → ℝ) (r j : Nat) : ℝ :=
  if flag = 0 ∧ r = 0 then t r j - C.moment j else t r j

/-- Applies a conversion of one column to all columns; an aborted column aborts. -/
noncomputable def eachColumn (f : (Nat → ℝ) → Res (Nat → ℝ)) (cols : Nat) (t : Nat → Nat → ℝ) : Res (Nat → Nat → ℝ) :=
  (List.range cols).foldlM (fun (t : Nat → Nat → ℝ) j => do
    let c ← f (fun r => t r j)
    pure fun r k => if k = j then c r else t r k) t

/-- Models `VariationalReconstruction<2>::FDiffBaseValue`, `src/CFV/VariationalReconstruction.hpp:373-427`. -/
noncomputable def diffBaseValue2 (C : CellBase) (pPhy : Per.V3) (flag : Int) (rows cols : Nat) : Res (Nat → Nat → ℝ) := do
  let pc := pPhy - C.cent
  let s := simpleScale2 C
  if C.localOrientation then
    let pm := C.majorCoordᵀ *ᵥ pc
    let t ← eachColumn (linMap2 C.majorCoord rows) cols fun r j => fill2D (pm 0 / s 0) (pm 1 / s 1) (pm 2 / s 2) (s 0) (s 1) (s 2) rows cols r j
    pure (subMoment C flag t)
  else
    pure (subMoment C flag fun r j => fill2D (pc 0 / s 0) (pc 1 / s 1) (pc 2 / s 2) (s 0) (s 1) (s 2) rows cols r j)

/-- Models `VariationalReconstruction<3>::FDiffBaseValue`, `src/CFV/VariationalReconstruction.hpp:373-427`. -/
noncomputable def diffBaseValue3 (C : CellBase) (pPhy : Per.V3) (flag : Int) (rows cols : Nat) : Res (Nat → Nat → ℝ) := do
  let pc := pPhy - C.cent
  let s := simpleScale3 C
  if C.localOrientation then
    let pm := C.majorCoordᵀ *ᵥ pc
    let t ← eachColumn (linMap3 C.majorCoord rows) cols fun r j => fill3D (pm 0 / s 0) (pm 1 / s 1) (pm 2 / s 2) (s 0) (s 1) (s 2) rows cols r j
    pure (subMoment C flag t)
  else
    pure (subMoment C flag fun r j => fill3D (pc 0 / s 0) (pc 1 / s 1) (pc 2 / s 2) (s 0) (s 1) (s 2) rows cols r j)

/-- A quadrature point of a cell in physical space: the weight `w`, the determinant `JDet` and the point `pPhy`. Where the points of
`Quadrature{…, INT_ORDER_MAX}` come from is not part of this model. -/
structure QPoint where
  w : ℝ
  det : ℝ
  p : Per.V3

/-- Models `Quadrature::Integration` of a scalar, `src/Geom/Quadrature.hpp:705-717`: `buf += acc * w`. -/
noncomputable def integrate (q : List QPoint) (f : QPoint → Res ℝ) (buf : ℝ) : Res ℝ :=
  q.foldlM (fun b g => do
    let acc ← f g
    pure (b + acc * g.w)) buf

/-- Models one entry of `cellBaseMoment[iCell]`, `src/CFV/VariationalReconstruction.cpp:390-409`; `vol` is `GetCellVol`. `base` is
`FDiffBaseValue` with one row. -/
noncomputable def baseMoment (base : Per.V3 → Int → Res (Nat → Nat → ℝ)) (q : List QPoint) (vol : ℝ) (j : Nat) : Res ℝ := do
  let m ← integrate q (fun g => do
    let vv ← base g.p 1
    pure (vv 0 j * g.det)) 0
  pure (m / vol)

end DNDSR.Jet

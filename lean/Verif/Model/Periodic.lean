import Verif.Model.Bits
import Mathlib.Data.Matrix.Mul
import Mathlib.Data.Real.Basic
import Mathlib.LinearAlgebra.Matrix.Notation

/-!
# Periodic coordinate transforms

Models `src/Geom/PeriodicInfo.hpp:129-332` over the real numbers.
-/

namespace DNDSR.Per

open Matrix

/-- A 3x3 matrix, `tGPoint`. -/
abbrev M3 := Matrix (Fin 3) (Fin 3) ℝ
/-- A point, `tPoint`. -/
abbrev V3 := Fin 3 → ℝ

/-- Models the members of `Periodicity`, `src/Geom/PeriodicInfo.hpp:131-133`: arrays of four entries. -/
structure Periodicity where
  rotation : Fin 4 → M3
  translation : Fin 4 → V3
  rotationCenter : Fin 4 → V3

/-- Models the default constructor, `src/Geom/PeriodicInfo.hpp:134-148`. -/
def Periodicity.default : Periodicity where
  rotation := fun _ => 1
  rotationCenter := fun _ => 0
  translation := ![0, ![1, 0, 0], ![0, 1, 0], ![0, 0, 1]]

/-- Models `FaceIDIsPeriodic`, `src/Geom/BoundaryCondition.hpp:117-125`. -/
def isPeriodic (id : Int) : Bool := id == -1 || id == -2 || id == -3 || id == -4 || id == -5 || id == -6

/-- Models `FaceIDIsPeriodicDonor`, `src/Geom/BoundaryCondition.hpp:152-157`. -/
def isDonor (id : Int) : Bool := id == -4 || id == -5 || id == -6

/-- The checks and the index computation shared by the transforms, for example `src/Geom/PeriodicInfo.hpp:194-199`; `at` aborts (throws)
out of range. -/
def slot (id : Int) : Res (Fin 4) :=
  if isPeriodic id then
    let i : Int := if isDonor id then -id - 3 else -id
    if h : 0 ≤ i ∧ i < 4 then .ok ⟨i.toNat, by omega⟩ else .abort
  else .abort

/-- Models `TransCoord`, `src/Geom/PeriodicInfo.hpp:192-201`. -/
noncomputable def transCoord (P : Periodicity) (c : V3) (id : Int) : Res V3 := do
  let i ← slot id
  .ok (P.rotation i *ᵥ (c - P.rotationCenter i) + P.rotationCenter i + P.translation i)

/-- Models `TransCoordBack`, `src/Geom/PeriodicInfo.hpp:203-212`. -/
noncomputable def transCoordBack (P : Periodicity) (c : V3) (id : Int) : Res V3 := do
  let i ← slot id
  .ok ((P.rotation i)ᵀ *ᵥ ((c - P.translation i) - P.rotationCenter i) + P.rotationCenter i)

/-- The matrix used for vectors and matrices of dimension 3 and 2: the whole rotation, or its block in the first two axes,
`src/Geom/PeriodicInfo.hpp:224-227`. -/
def block (R : M3) : Matrix (Fin 2) (Fin 2) ℝ := fun a b => R a.castSucc b.castSucc

variable {nVec : Nat}

/-- Models `TransVector<3, nVec>`, `src/Geom/PeriodicInfo.hpp:216-228`. -/
noncomputable def transVector3 (P : Periodicity) (v : Matrix (Fin 3) (Fin nVec) ℝ) (id : Int) : Res (Matrix (Fin 3) (Fin nVec) ℝ) := do
  let i ← slot id
  .ok (P.rotation i * v)

/-- Models `TransVector<2, nVec>`, `src/Geom/PeriodicInfo.hpp:216-228`. -/
noncomputable def transVector2 (P : Periodicity) (v : Matrix (Fin 2) (Fin nVec) ℝ) (id : Int) : Res (Matrix (Fin 2) (Fin nVec) ℝ) := do
  let i ← slot id
  .ok (block (P.rotation i) * v)

/-- Models `TransVectorBack<3, nVec>`, `src/Geom/PeriodicInfo.hpp:230-243`. -/
noncomputable def transVectorBack3 (P : Periodicity) (v : Matrix (Fin 3) (Fin nVec) ℝ) (id : Int) : Res (Matrix (Fin 3) (Fin nVec) ℝ) := do
  let i ← slot id
  .ok ((P.rotation i)ᵀ * v)

/-- Models `TransVectorBack<2, nVec>`, `src/Geom/PeriodicInfo.hpp:230-243`. -/
noncomputable def transVectorBack2 (P : Periodicity) (v : Matrix (Fin 2) (Fin nVec) ℝ) (id : Int) : Res (Matrix (Fin 2) (Fin nVec) ℝ) := do
  let i ← slot id
  .ok ((block (P.rotation i))ᵀ * v)

/-- Models `TransMat<3>`, `src/Geom/PeriodicInfo.hpp:245-258`. -/
noncomputable def transMat3 (P : Periodicity) (m : M3) (id : Int) : Res M3 := do
  let i ← slot id
  .ok (P.rotation i * m * (P.rotation i)ᵀ)

/-- Models `TransMatBack<3>`, `src/Geom/PeriodicInfo.hpp:260-273`. -/
noncomputable def transMatBack3 (P : Periodicity) (m : M3) (id : Int) : Res M3 := do
  let i ← slot id
  .ok ((P.rotation i)ᵀ * m * P.rotation i)

/-- Models `TransMat<2>`, `src/Geom/PeriodicInfo.hpp:245-258`. -/
noncomputable def transMat2 (P : Periodicity) (m : Matrix (Fin 2) (Fin 2) ℝ) (id : Int) : Res (Matrix (Fin 2) (Fin 2) ℝ) := do
  let i ← slot id
  .ok (block (P.rotation i) * m * (block (P.rotation i))ᵀ)

/-- Models `TransMatBack<2>`, `src/Geom/PeriodicInfo.hpp:260-273`. -/
noncomputable def transMatBack2 (P : Periodicity) (m : Matrix (Fin 2) (Fin 2) ℝ) (id : Int) : Res (Matrix (Fin 2) (Fin 2) ℝ) := do
  let i ← slot id
  .ok ((block (P.rotation i))ᵀ * m * block (P.rotation i))

/-- A step taken only if its bit is set. -/
def optStep {α : Type} (b : Bool) (f : α → Res α) (c : α) : Res α := if b then f c else .ok c

/-- Models `GetCoordByBits`, `src/Geom/PeriodicInfo.hpp:275-287`. -/
noncomputable def coordByBits (P : Periodicity) (c : V3) (bits : Bits.Mark) : Res V3 := do
  if bits = 0 then return c
  let ret ← optStep (Bits.getP3 bits) (fun r => transCoord P r (-3)) c
  let ret ← optStep (Bits.getP2 bits) (fun r => transCoord P r (-2)) ret
  optStep (Bits.getP1 bits) (fun r => transCoord P r (-1)) ret

/-- Models `GetCoordBackByBits`, `src/Geom/PeriodicInfo.hpp:304-316`. -/
noncomputable def coordBackByBits (P : Periodicity) (c : V3) (bits : Bits.Mark) : Res V3 := do
  if bits = 0 then return c
  let ret ← optStep (Bits.getP1 bits) (fun r => transCoordBack P r (-1)) c
  let ret ← optStep (Bits.getP2 bits) (fun r => transCoordBack P r (-2)) ret
  optStep (Bits.getP3 bits) (fun r => transCoordBack P r (-3)) ret

/-- Models `GetVectorByBits<3, nVec>`, `src/Geom/PeriodicInfo.hpp:289-302`. -/
noncomputable def vectorByBits3 (P : Periodicity) (v : Matrix (Fin 3) (Fin nVec) ℝ) (bits : Bits.Mark) :
    Res (Matrix (Fin 3) (Fin nVec) ℝ) := do
  if bits = 0 then return v
  let ret ← optStep (Bits.getP3 bits) (fun r => transVector3 P r (-3)) v
  let ret ← optStep (Bits.getP2 bits) (fun r => transVector3 P r (-2)) ret
  optStep (Bits.getP1 bits) (fun r => transVector3 P r (-1)) ret

/-- Models `GetVectorBackByBits<3, nVec>`, `src/Geom/PeriodicInfo.hpp:318-331`. -/
noncomputable def vectorBackByBits3 (P : Periodicity) (v : Matrix (Fin 3) (Fin nVec) ℝ) (bits : Bits.Mark) :
    Res (Matrix (Fin 3) (Fin nVec) ℝ) := do
  if bits = 0 then return v
  let ret ← optStep (Bits.getP1 bits) (fun r => transVectorBack3 P r (-1)) v
  let ret ← optStep (Bits.getP2 bits) (fun r => transVectorBack3 P r (-2)) ret
  optStep (Bits.getP3 bits) (fun r => transVectorBack3 P r (-3)) ret

/-- Models `GetVectorByBits<2, nVec>`, `src/Geom/PeriodicInfo.hpp:289-302`. -/
noncomputable def vectorByBits2 (P : Periodicity) (v : Matrix (Fin 2) (Fin nVec) ℝ) (bits : Bits.Mark) :
    Res (Matrix (Fin 2) (Fin nVec) ℝ) := do
  if bits = 0 then return v
  let ret ← optStep (Bits.getP3 bits) (fun r => transVector2 P r (-3)) v
  let ret ← optStep (Bits.getP2 bits) (fun r => transVector2 P r (-2)) ret
  optStep (Bits.getP1 bits) (fun r => transVector2 P r (-1)) ret

/-- Models `GetVectorBackByBits<2, nVec>`, `src/Geom/PeriodicInfo.hpp:318-331`. -/
noncomputable def vectorBackByBits2 (P : Periodicity) (v : Matrix (Fin 2) (Fin nVec) ℝ) (bits : Bits.Mark) :
    Res (Matrix (Fin 2) (Fin nVec) ℝ) := do
  if bits = 0 then return v
  let ret ← optStep (Bits.getP1 bits) (fun r => transVectorBack2 P r (-1)) v
  let ret ← optStep (Bits.getP2 bits) (fun r => transVectorBack2 P r (-2)) ret
  optStep (Bits.getP3 bits) (fun r => transVectorBack2 P r (-3)) ret

end DNDSR.Per

import Verif.Spec.Sweeps
import Verif.Spec.Gas
import Verif.Proof.FluxSum
import Verif.Model.TimeStep
import Mathlib.Data.Real.Basic

/-!
# What time steps have to do (C86)

`U i` is the state of cell `i` of the mesh, `geo q` the geometry of face `q`, whose normal points out of the cell on its first
side.
-/

namespace DNDSR.Dt

open DNDSR.Elem DNDSR.IMap DNDSR.MeshAdj DNDSR.Faces
open DNDSR.Gas (St Physical primOf)
open DNDSR.Flux (nSides firstSide Frame)
open DNDSR.Sweep (Mates)
open Matrix

variable {d : Nat}

/-- The sound speed. -/
noncomputable def sound (gamma : ℝ) (U : St ℝ d) : ℝ := √(gamma * (primOf gamma U).2.2 / U.1)

/-- The velocity of the gas through a face with normal `n` moving at `vg`. -/
noncomputable def through (vg n : Fin d → ℝ) (U : St ℝ d) : ℝ := ∑ k, (U.2.1 k / U.1 - vg k) * n k

/-- The fastest wave relative to the face. -/
noncomputable def fastest (gamma : ℝ) (vg n : Fin d → ℝ) (U : St ℝ d) : ℝ := |through vg n U| + sound gamma U

/-- Crossing a periodic boundary rotates the momentum: by `M z` from the frame of the face to that of the cell behind it. -/
structure Rotates (fr : Frame (St ℝ d)) (M : Int → Matrix (Fin d) (Fin d) ℝ) : Prop where
  orth : ∀ z, (M z)ᵀ * M z = 1
  fwd : ∀ z U, fr.trans z U = (U.1, M z *ᵥ U.2.1, U.2.2)
  back : ∀ z U, fr.transBack z U = (U.1, (M z)ᵀ *ᵥ U.2.1, U.2.2)

/-- The mesh and its values. `E` gives the first side of each face, `mate i j` the cell on the other side of face `j` of cell `i`. -/
structure Prob (d : Nat) where
  per : Bool
  G : List Cell
  F : Nat → Nat → Int
  E : Int → Nat × Nat
  mate : Nat → Nat → Option Nat
  fr : Frame (St ℝ d)
  U : Nat → St ℝ d
  vol : Nat → ℝ
  ratio : Nat → ℝ
  geo : Int → Geo d

namespace Prob

variable (P : Prob d)

/-- The state on the second side of a face, if there is a cell, in the frame of the face. -/
def far (q : Int) : Option (St ℝ d) :=
  (P.mate (P.E q).1 (P.E q).2).map fun i' =>
    if P.fr.periodic = true ∧ (P.geo q).zone ∈ ([-1, -2, -3] : List Int) then P.fr.transBack (P.geo q).zone (P.U i')
    else if P.fr.periodic = true ∧ (P.geo q).zone ∈ ([-4, -5, -6] : List Int) then P.fr.trans (P.geo q).zone (P.U i') else P.U i'

/-- The state on the first side. -/
def near (q : Int) : St ℝ d := P.U (P.E q).1

/-- The same, or the near state at a boundary. -/
def far' (q : Int) : St ℝ d := (P.far q).getD (P.near q)

/-- The volume on the second side, or the first at a boundary. -/
def volFar (q : Int) : ℝ := ((P.mate (P.E q).1 (P.E q).2).map P.vol).getD (P.vol (P.E q).1)

/-- The speed at which viscosity carries things through the face. -/
noncomputable def visc (c : Conf) (q : Int) : ℝ :=
  let m := (1 / 2 : ℝ) • (P.near q + P.far' q)
  let p := 1 / 2 * ((primOf c.gamma (P.near q)).2.2 + (primOf c.gamma (P.far' q)).2.2)
  (P.geo q).mu m p / m.1 * max (4 / 3) (c.gamma / c.pr) * (P.geo q).area * (1 / P.vol (P.E q).1 + 1 / P.volFar q)

/-- The fastest wave on either side. -/
noncomputable def wave (c : Conf) (q : Int) : ℝ :=
  max (fastest c.gamma (P.geo q).vg (P.geo q).norm (P.near q)) (fastest c.gamma (P.geo q).vg (P.geo q).norm (P.far' q))

/-- The speed of a face. -/
noncomputable def speed (c : Conf) (q : Int) : ℝ := P.wave c q + P.visc c q

/-- All speeds of a face: the whole one, the one of things that move with the gas, the viscous and the wave part, and how much
the two sides differ. -/
noncomputable def speeds (c : Conf) (q : Int) : Lams :=
  let L := through (P.geo q).vg (P.geo q).norm (P.near q)
  let R := through (P.geo q).vg (P.geo q).norm (P.far' q)
  { full := P.speed c q, conv := |(L + R) / 2| + P.visc c q, vis := P.visc c q, wave := P.wave c q,
    delta := |R - L| + √|sound c.gamma (P.far' q) ^ 2 - sound c.gamma (P.near q) ^ 2| * (7071 / 10000) }

/-- What leaves cell `i` per time, as a volume. -/
noncomputable def outflow (c : Conf) (i : Nat) : ℝ := ∑ j ∈ Finset.range (nSides P.G i), P.speed c (P.F i j) * (P.geo (P.F i j)).area

/-- The step of cell `i`. -/
noncomputable def step (c : Conf) (i : Nat) : ℝ := min (c.cfl * P.vol i * P.ratio i / (P.outflow c i + 1 / 10 ^ 100)) c.maxDt

/-- The rotation from the frame of a face of zone `z` to that of the cell behind it. -/
def toBehind (M : Int → Matrix (Fin d) (Fin d) ℝ) (z : Int) : Matrix (Fin d) (Fin d) ℝ :=
  if P.fr.periodic = true ∧ z ∈ ([-1, -2, -3] : List Int) then M z
  else if P.fr.periodic = true ∧ z ∈ ([-4, -5, -6] : List Int) then (M z)ᵀ else 1

/-- The normal of face `j` of cell `i`, out of the cell and in its frame. -/
def outward (M : Int → Matrix (Fin d) (Fin d) ℝ) (i j : Nat) : Fin d → ℝ :=
  let g := P.geo (P.F i j)
  if firstSide P.E P.F i j then g.norm else -(P.toBehind M g.zone *ᵥ g.norm)

/-- The velocity of the face in the same frame. -/
def faceVelo (M : Int → Matrix (Fin d) (Fin d) ℝ) (i j : Nat) : Fin d → ℝ :=
  let g := P.geo (P.F i j)
  if firstSide P.E P.F i j then g.vg else P.toBehind M g.zone *ᵥ g.vg

/-- The faces of a cell close it, and moving them keeps its volume. -/
def Closed (M : Int → Matrix (Fin d) (Fin d) ℝ) (i : Nat) : Prop :=
  (∀ k, ∑ j ∈ Finset.range (nSides P.G i), (P.geo (P.F i j)).area * P.outward M i j k = 0) ∧
  ∑ j ∈ Finset.range (nSides P.G i), (P.geo (P.F i j)).area * (P.faceVelo M i j ⬝ᵥ P.outward M i j) = 0

/-- The state behind a face, `bnd q` at a boundary. -/
def behind (bnd : Int → St ℝ d) (q : Int) : St ℝ d := (P.far q).getD (bnd q)

/-- `flux q` is what the Riemann solver `Roe_M2` gives for the mean values of the two cells, times the area, into the first cell. -/
def FirstOrder (c : Conf) (bnd : Int → St ℝ d) (q : Int) (flux : St ℝ d) : Prop :=
  ∃ (N : St ℝ d) (l : Gas.Lam) (dl : ℝ), Gas.flux .roeM2 c.gamma (P.near q) (P.behind bnd q) (P.near q) (P.behind bnd q)
    (P.geo q).vg (P.geo q).norm dl = .ok (N, l) ∧ flux = -((P.geo q).area • N)

end Prob

/-- Every rank has its part of the mesh and of the values. -/
structure OnMesh (cl nl : List Nat) (gc : GOM) (ranks : List RankIn) (outs : List RankOut) (rs : List (Rk d)) (P : Prob d) : Prop where
  dist : Distributed P.per cl nl P.G gc ranks
  num : Numbered P.per cl nl P.G ranks outs P.F
  orient : Orient P.per cl P.G ranks outs P.F P.E
  mates : Mates P.per P.G P.F P.mate
  size : rs.length = ranks.length
  byFace : ∀ (r : Nat) (o : RankOut) (s : Rk d) (q : Int) (v : Nat), outs[r]? = some o → rs[r]? = some s →
    LocalName (outs.map (·.nFaces)) r o.faceMap.ghostIndex q v → Global (outs.map (·.nFaces)) q → s.geo[v]? = some (P.geo q)
  byCell : ∀ (r : Nat) (x : RankIn) (s : Rk d) (i l : Nat), ranks[r]? = some x → rs[r]? = some s →
    LocalName cl r x.cellMap.ghostIndex i l → s.u[l]? = some (P.U i) ∧ s.vol[l]? = some (P.vol i) ∧ s.ratio[l]? = some (P.ratio i)
  lens : ∀ (r : Nat) (x : RankIn) (s : Rk d), ranks[r]? = some x → rs[r]? = some s → s.dt.length = x.cells.length

end DNDSR.Dt

import Verif.Spec.Recon
import Verif.Spec.RecIter
import Verif.Model.SmoothInd

/-!
# What the smoothness indicators have to be (C101)
-/

namespace DNDSR.SmoothInd

open DNDSR.Rec
open DNDSR.Elem DNDSR.IMap DNDSR.MeshAdj DNDSR.Faces
open DNDSR.Flux (nSides firstSide)
open DNDSR.Sweep (Mates)
open Matrix

variable {d N V : Nat}

/-- The plane or space. -/
inductive Dim : {d : Nat} → Space → Frame d → Prop
  | plane : Dim space2 frame2
  | space : Dim space3 frame3

/-- The polynomial of a variable in a cell. -/
noncomputable def polyOf (Fr : Frame d) (C : CellIn N V) (v : Fin V) : (Fin d → ℝ) → ℝ := poly Fr C.base (fun j => C.x j v) (C.u v)

/-- The centre of a face in the coordinates of the cell on one of its sides: through a periodic boundary they differ. -/
noncomputable def centre (Fr : Frame d) (W : Wrap) (D : FaceData) (if2c : Bool) : Fin d → ℝ := Fr.proj (onSide W D.zone if2c D.cent)

/-- Half the difference of the polynomials on both sides, around the centre of a face. -/
noncomputable def jump (Fr : Frame d) (W : Wrap) (C : CellIn N V) (f : FaceIn N V) (v : Fin V) (z : Fin d → ℝ) : ℝ :=
  match f.other with
  | none => 0
  | some C' => (polyOf Fr C v (fun i => z i + centre Fr W f.data f.if2c i) - polyOf Fr C' v (fun i => z i + centre Fr W f.data f.if2cOther i)) / 2

/-- Their mean. -/
noncomputable def avg (Fr : Frame d) (W : Wrap) (C : CellIn N V) (f : FaceIn N V) (v : Fin V) (z : Fin d → ℝ) : ℝ :=
  match f.other with
  | none => 0
  | some C' => (polyOf Fr C v (fun i => z i + centre Fr W f.data f.if2c i) + polyOf Fr C' v (fun i => z i + centre Fr W f.data f.if2cOther i)) / 2

/-- The weight of a face. -/
noncomputable def size (f : FaceIn N V) : ℝ := f.data.fn.area * f.data.ws.sum

/-- The squares of jumps of the value and the derivatives on the faces, relative to those of the means. -/
noncomputable def rough (S : Space) (W : Wrap) (Fr : Frame d) (m : Nat) (C : CellIn N V) (fs : List (FaceIn N V)) (v : Fin V) : ℝ :=
  (fs.map fun f => size f * facePenalty S Fr f.data.fn m (jump Fr W C f v) 0).sum /
    ((fs.map fun f => size f * facePenalty S Fr f.data.fn m (avg Fr W C f v) 0).sum + 1 / 10 ^ 200)

/-- The values of a cell at the centre of a face. -/
noncomputable def at0 (Fr : Frame d) (W : Wrap) (C : CellIn N V) (D : FaceData) (if2c : Bool) : Fin V → ℝ := fun v => polyOf Fr C v (centre Fr W D if2c)

/-- The same with the values only, of what `g` makes of them. -/
noncomputable def rough1 (W : Wrap) (Fr : Frame d) (g : (Fin V → ℝ) → Fin V → ℝ) (C : CellIn N V) (fs : List (FaceIn N V)) (v : Fin V) : ℝ :=
  (fs.map fun f => match f.other with
    | none => 0
    | some C' => size f * (f.data.fn.weight 0 ^ 2 * ((g (at0 Fr W C f.data f.if2c) v - g (at0 Fr W C' f.data f.if2cOther) v) / 2) ^ 2)).sum /
    ((fs.map fun f => match f.other with
      | none => 0
      | some C' => size f * (f.data.fn.weight 0 ^ 2 * ((g (at0 Fr W C f.data f.if2c) v + g (at0 Fr W C' f.data f.if2cOther) v) / 2) ^ 2)).sum + 1 / 10 ^ 200)

/-- The centre of the face is in the plane of the cells on both sides. -/
def Sits (W : Wrap) (Fr : Frame d) (C : CellIn N V) (f : FaceIn N V) : Prop :=
  Fr.inPlane C.base (onSide W f.data.zone f.if2c f.data.cent) ∧ ∀ C', f.other = some C' → Fr.inPlane C'.base (onSide W f.data.zone f.if2cOther f.data.cent)

/-- Areas and weights are not negative. -/
def Positive (f : FaceIn N V) : Prop := 0 ≤ f.data.fn.area ∧ ∀ w ∈ f.data.ws, 0 ≤ w

/-- The largest of some numbers that are not negative, as a root, times the square of the order. -/
def IsLargest (order : Nat) (vs : List (Fin V)) (ρ : Fin V → ℝ) (σ : ℝ) : Prop :=
  IsGreatest {y | ∃ v ∈ vs, y = (order : ℝ) ^ 2 * √|ρ v|} σ

/-- A variable goes on through all faces of a cell: the neighbours have the polynomial of the cell. -/
def GoesOn (Fr : Frame d) (W : Wrap) (C : CellIn N V) (fs : List (FaceIn N V)) (v : Fin V) : Prop :=
  ∀ f ∈ fs, ∀ C', f.other = some C' → ∀ z : Fin d → ℝ,
    polyOf Fr C v (fun i => z i + centre Fr W f.data f.if2c i) = polyOf Fr C' v (fun i => z i + centre Fr W f.data f.if2cOther i)

/-- A quantity has the same value on both sides at the centres of all faces of a cell. -/
def SameAtFaces (Fr : Frame d) (W : Wrap) (q : (Fin V → ℝ) → ℝ) (C : CellIn N V) (fs : List (FaceIn N V)) : Prop :=
  ∀ f ∈ fs, ∀ C', f.other = some C' → q (at0 Fr W C f.data f.if2c) = q (at0 Fr W C' f.data f.if2cOther)

/-- A quantity has two values at the centre of some face of a cell that counts. -/
def JumpsAtFace (Fr : Frame d) (W : Wrap) (q : (Fin V → ℝ) → ℝ) (C : CellIn N V) (fs : List (FaceIn N V)) : Prop :=
  ∃ f ∈ fs, ∃ C', f.other = some C' ∧ 0 < size f ∧ f.data.fn.weight 0 ≠ 0 ∧ q (at0 Fr W C f.data f.if2c) ≠ q (at0 Fr W C' f.data f.if2cOther)

/-- The pressure of an ideal gas with density, `d` momenta, energy and `e` more variables; where the density is not positive (less than `1e-200`), a number
that stands for it. -/
noncomputable def pressure (d e : Nat) (gamma : ℝ) (v : Fin (d + 2 + e) → ℝ) : ℝ :=
  if v ⟨0, by omega⟩ < 1 / 10 ^ 200 then -(3 * 10 ^ 200) * v ⟨d + 1, by omega⟩
  else (gamma - 1) * (v ⟨d + 1, by omega⟩ - (∑ i : Fin d, v ⟨i.1 + 1, by omega⟩ ^ 2) / (2 * v ⟨0, by omega⟩))

/-! ## On the mesh -/

/-- The whole mesh: what there is in each cell and on each face. -/
structure Prob (N V : Nat) where
  per : Bool
  G : List Cell
  F : Nat → Nat → Int
  E : Int → Nat × Nat
  mate : Nat → Nat → Option Nat
  C : Nat → CellIn N V
  D : Int → FaceData

/-- Face `j` of cell `i`. -/
def Prob.face (P : Prob N V) (i j : Nat) : FaceIn N V :=
  ⟨P.D (P.F i j), !firstSide P.E P.F i j, match P.mate i j with | none => true | some _ => firstSide P.E P.F i j, (P.mate i j).map P.C⟩

/-- All faces of cell `i`. -/
def Prob.faces (P : Prob N V) (i : Nat) : List (FaceIn N V) := (List.range (nSides P.G i)).map (P.face i)

/-- Every rank has its part of the mesh. -/
structure OnMesh (cl nl : List Nat) (gc : GOM) (ranks : List RankIn) (outs : List RankOut) (rs : List (Rk N V)) (P : Prob N V) : Prop where
  dist : Distributed P.per cl nl P.G gc ranks
  num : Numbered P.per cl nl P.G ranks outs P.F
  orient : Orient P.per cl P.G ranks outs P.F P.E
  mates : Mates P.per P.G P.F P.mate
  size : rs.length = ranks.length
  own : ∀ (r : Nat) (x : RankIn) (s : Rk N V), ranks[r]? = some x → rs[r]? = some s → s.n = x.nOwn
  faces : ∀ (r : Nat) (o : RankOut) (s : Rk N V), outs[r]? = some o → rs[r]? = some s → s.faces = o.faces ∧ s.c2f = o.c2f
  byFace : ∀ (r : Nat) (o : RankOut) (s : Rk N V) (q : Int) (v : Nat), outs[r]? = some o → rs[r]? = some s →
    LocalName (outs.map (·.nFaces)) r o.faceMap.ghostIndex q v → Global (outs.map (·.nFaces)) q → s.data[v]? = some (P.D q)
  byCell : ∀ (r : Nat) (x : RankIn) (s : Rk N V) (i l : Nat), ranks[r]? = some x → rs[r]? = some s →
    LocalName cl r x.cellMap.ghostIndex i l → s.cells[l]? = some (P.C i)

/-- A procedure gives the numbers `σ` to the cells, on every number of ranks and whatever the distribution. -/
def Gives (proc : Rk N V → Res (List ℝ)) (P : Prob N V) (σ : Nat → ℝ) : Prop :=
  ∀ (cl nl : List Nat) (gc : GOM) (ranks : List RankIn) (outs : List RankOut) (rs : List (Rk N V)), OnMesh cl nl gc ranks outs rs P →
    ∀ (r : Nat) (s : Rk N V), rs[r]? = some s → ∃ si, proc s = .ok si ∧ si.length = s.n ∧
      ∀ i : Nat, Owns cl r i → si[((i : Int) - before cl r).toNat]? = some (σ i)

end DNDSR.SmoothInd

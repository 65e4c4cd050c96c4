import Verif.Model.MeshMove
import Verif.Props.Rotation
import Verif.Props.Periodic

/-!
# A mesh that is turned and scaled keeps its periodicity (C105)
-/

namespace DNDSR.Move

open DNDSR.Rot DNDSR.Per Matrix

/-- **C105** (configuration) The periodic rotations that are configured by angles are proper, so that a transformation can be undone. -/
theorem configure_proper (cfg : PeriodicConfig) (P : Periodicity) (i : Fin 4) (hi : i ≠ 0) : Proper ((configure cfg P).rotation i) := by
  have h : ∀ a, Proper (euler a) := fun a => ((rot_axes (a 2)).2.2.1.mul (rot_axes (a 1)).2.1).mul (rot_axes (a 0)).1
  fin_cases i
  · exact absurd rfl hi
  · exact h _
  · exact h _
  · exact h _

/-- the map that the configuration applies to points: a rotation about the third axis, and a scaling -/
noncomputable def place (cfg : Config) (p : Rot.V3) : Rot.V3 :=
  cfg.meshScale • (!![Real.cos (cfg.meshRotZ / 180 * Real.pi), -Real.sin (cfg.meshRotZ / 180 * Real.pi), 0;
    Real.sin (cfg.meshRotZ / 180 * Real.pi), Real.cos (cfg.meshRotZ / 180 * Real.pi), 0; 0, 0, 1] *ᵥ p)

theorem rz_eq (d : ℝ) : rz d = rotZ d := by
  have : d / 180 * Real.pi = d * (Real.pi / 180) := by ring
  simp only [rz, rotZ, this]

theorem rz_proper (d : ℝ) : Proper (rz d) := by rw [rz_eq]; exact (rot_axes d).2.2.1

theorem rz_zero : rz 0 = 1 := by
  ext i j
  fin_cases i <;> fin_cases j <;> simp [rz]

/-- the transformations after turning and scaling -/
noncomputable def moved (cfg : Config) (P : Periodicity) : Periodicity where
  rotation := fun i => rz cfg.meshRotZ * P.rotation i * (rz cfg.meshRotZ)ᵀ
  rotationCenter := fun i => place cfg (P.rotationCenter i)
  translation := fun i => place cfg (P.translation i)

theorem place_eq (cfg : Config) (p : Rot.V3) : place cfg p = cfg.meshScale • (rz cfg.meshRotZ *ᵥ p) := rfl

theorem prepare_eq (cfg : Config) (h : ∀ i, cfg.rectify i = false) (mesh : Grid) (bc : List Rot.V3) :
    prepare cfg mesh bc = (⟨mesh.coords.map (place cfg), moved cfg mesh.info⟩, ⟨bc.map (place cfg), mesh.info⟩) := by
  have hr : ∀ g, rectifyStep cfg g = g := fun g => by simp [rectifyStep, h]
  have e1 : rotateStep cfg (mesh, ⟨bc, mesh.info⟩) = (⟨mesh.coords.map (fun p => rz cfg.meshRotZ *ᵥ p),
      ⟨fun i => rz cfg.meshRotZ * mesh.info.rotation i * (rz cfg.meshRotZ)ᵀ, fun i => rz cfg.meshRotZ *ᵥ mesh.info.translation i,
        fun i => rz cfg.meshRotZ *ᵥ mesh.info.rotationCenter i⟩⟩, ⟨bc.map (fun p => rz cfg.meshRotZ *ᵥ p), mesh.info⟩) := by
    unfold rotateStep
    by_cases h0 : cfg.meshRotZ = 0
    · rw [if_neg (by simpa using h0), h0, rz_zero]
      simp
    · rw [if_pos h0]
      rfl
  unfold prepare
  rw [hr, e1]
  unfold scaleStep
  by_cases h1 : cfg.meshScale = 1
  · rw [if_neg (by simpa using h1)]
    simp only [moved]
    have : place cfg = fun p => rz cfg.meshRotZ *ᵥ p := by
      funext p; rw [place_eq, h1, one_smul]
    rw [this]
  · rw [if_pos h1]
    simp only [transformCoords, List.map_map]
    rfl

theorem place_add (cfg : Config) (p q : Rot.V3) : place cfg (p + q) = place cfg p + place cfg q := by
  simp only [place_eq, mulVec_add, smul_add]

theorem place_sub (cfg : Config) (p q : Rot.V3) : place cfg (p - q) = place cfg p - place cfg q := by
  simp only [place_eq, mulVec_sub, smul_sub]

theorem place_rot (cfg : Config) (R : Rot.M3) (p : Rot.V3) : (rz cfg.meshRotZ * R * (rz cfg.meshRotZ)ᵀ) *ᵥ place cfg p = place cfg (R *ᵥ p) := by
  rw [place_eq, place_eq, mulVec_smul, mulVec_mulVec, Matrix.mul_assoc, (rz_proper cfg.meshRotZ).1.1, Matrix.mul_one, mulVec_mulVec]

theorem moved_transCoord (cfg : Config) (P : Periodicity) (c : Rot.V3) (id : Int) :
    transCoord (moved cfg P) (place cfg c) id = (transCoord P c id).bind (fun q => .ok (place cfg q)) := by
  unfold transCoord
  show (slot id).bind _ = ((slot id).bind _).bind _
  cases slot id with
  | ok i =>
    refine congrArg Res.ok ?_
    show (rz cfg.meshRotZ * P.rotation i * (rz cfg.meshRotZ)ᵀ) *ᵥ (place cfg c - place cfg (P.rotationCenter i)) + place cfg (P.rotationCenter i) + place cfg (P.translation i) = _
    rw [← place_sub, place_rot, ← place_add, ← place_add]
  | abort => rfl
  | ub => rfl

theorem moved_transCoordBack (cfg : Config) (P : Periodicity) (c : Rot.V3) (id : Int) :
    transCoordBack (moved cfg P) (place cfg c) id = (transCoordBack P c id).bind (fun q => .ok (place cfg q)) := by
  unfold transCoordBack
  show (slot id).bind _ = ((slot id).bind _).bind _
  cases slot id with
  | ok i =>
    refine congrArg Res.ok ?_
    show (rz cfg.meshRotZ * P.rotation i * (rz cfg.meshRotZ)ᵀ)ᵀ *ᵥ (place cfg c - place cfg (P.translation i) - place cfg (P.rotationCenter i)) + place cfg (P.rotationCenter i) = _
    rw [transpose_mul, transpose_mul, transpose_transpose, ← Matrix.mul_assoc, ← place_sub, ← place_sub, place_rot, ← place_add]
  | abort => rfl
  | ub => rfl

theorem optStep_move (cfg : Config) {f g : Rot.V3 → Res Rot.V3} (h : ∀ c, g (place cfg c) = (f c).bind (fun q => .ok (place cfg q))) (b : Bool) (c : Rot.V3) :
    optStep b g (place cfg c) = (optStep b f c).bind (fun q => .ok (place cfg q)) := by
  cases b
  · rfl
  · exact h c

theorem chain_move (cfg : Config) {f1 f2 f3 g1 g2 g3 : Rot.V3 → Res Rot.V3} (h1 : ∀ c, g1 (place cfg c) = (f1 c).bind (fun q => .ok (place cfg q)))
    (h2 : ∀ c, g2 (place cfg c) = (f2 c).bind (fun q => .ok (place cfg q))) (h3 : ∀ c, g3 (place cfg c) = (f3 c).bind (fun q => .ok (place cfg q)))
    (b1 b2 b3 : Bool) (c : Rot.V3) :
    ((optStep b1 g1 (place cfg c)).bind fun r => (optStep b2 g2 r).bind fun r => optStep b3 g3 r) =
      ((optStep b1 f1 c).bind fun r => (optStep b2 f2 r).bind fun r => optStep b3 f3 r).bind (fun q => .ok (place cfg q)) := by
  rw [optStep_move cfg h1]
  cases optStep b1 f1 c with
  | ok r =>
    show (optStep b2 g2 (place cfg r)).bind _ = ((optStep b2 f2 r).bind _).bind _
    rw [optStep_move cfg h2]
    cases optStep b2 f2 r with
    | ok r => exact optStep_move cfg h3 b3 r
    | abort => rfl
    | ub => rfl
  | abort => rfl
  | ub => rfl

/-- **C105** (the mesh) Without rectification, every node of the mesh is turned and scaled, and so is every image of it: the node that a cell sees across periodic boundaries is the
turned and scaled image of the node it saw before, and the periodic rotations stay proper. -/
theorem prepare_periodic_partial (cfg : Config) (h : ∀ i, cfg.rectify i = false) (mesh : Grid) (bc : List Rot.V3) :
    (prepare cfg mesh bc).1.coords = mesh.coords.map (place cfg) ∧ (prepare cfg mesh bc).2.coords = bc.map (place cfg) ∧
    (∀ c id, transCoord (prepare cfg mesh bc).1.info (place cfg c) id = (transCoord mesh.info c id).bind (fun q => .ok (place cfg q))) ∧
    (∀ c id, transCoordBack (prepare cfg mesh bc).1.info (place cfg c) id = (transCoordBack mesh.info c id).bind (fun q => .ok (place cfg q))) ∧
    (∀ c bits, coordByBits (prepare cfg mesh bc).1.info (place cfg c) bits = (coordByBits mesh.info c bits).bind (fun q => .ok (place cfg q))) ∧
    (∀ c bits, coordBackByBits (prepare cfg mesh bc).1.info (place cfg c) bits = (coordBackByBits mesh.info c bits).bind (fun q => .ok (place cfg q))) ∧
    ∀ i, Proper (mesh.info.rotation i) → Proper ((prepare cfg mesh bc).1.info.rotation i) := by
  rw [prepare_eq cfg h]
  refine ⟨rfl, rfl, moved_transCoord cfg _, moved_transCoordBack cfg _, fun c bits => ?_, fun c bits => ?_, fun i hi => ?_⟩
  · unfold coordByBits
    by_cases hb : bits = 0
    · simp only [hb, if_true]; rfl
    · simp only [hb, if_false]
      exact chain_move cfg (fun c => moved_transCoord cfg _ c _) (fun c => moved_transCoord cfg _ c _) (fun c => moved_transCoord cfg _ c _) _ _ _ c
  · unfold coordBackByBits
    by_cases hb : bits = 0
    · simp only [hb, if_true]; rfl
    · simp only [hb, if_false]
      exact chain_move cfg (fun c => moved_transCoordBack cfg _ c _) (fun c => moved_transCoordBack cfg _ c _) (fun c => moved_transCoordBack cfg _ c _) _ _ _ c
  · have hz := rz_proper cfg.meshRotZ
    have ht : Proper (rz cfg.meshRotZ)ᵀ := ⟨⟨by rw [transpose_transpose]; exact hz.1.2, by rw [transpose_transpose]; exact hz.1.1⟩, by rw [det_transpose]; exact hz.2⟩
    exact (hz.mul hi).mul ht

/-- **C105** (shape) All distances are multiplied by the scale. -/
theorem place_dist (cfg : Config) (a b : Rot.V3) : dist2 (place cfg a) (place cfg b) = cfg.meshScale ^ 2 * dist2 a b := by
  unfold dist2
  rw [← place_sub, place_eq, smul_dotProduct, dotProduct_smul, rigid_dot (rz_proper cfg.meshRotZ).1.1]
  simp only [smul_eq_mul]
  ring

/-- a unit cell with its right side periodic to its left one, scaled by two -/
noncomputable def twice : Config where
  meshRotZ := 0
  meshScale := 2
  rectify := fun _ => false
  rectifyThres := 0

/-- **C105 fails** for the boundary mesh: it copies the periodic transformations before the mesh is scaled, and only those of the mesh are changed.  The image of a node, which is written to the
output, is not where the mesh has it. -/
theorem bnd_info_stale : ∃ (bc : List Rot.V3) (bits : Bits.Mark), (prepare twice ⟨bc, Periodicity.default⟩ bc).1.coords = (prepare twice ⟨bc, Periodicity.default⟩ bc).2.coords ∧
    ∃ c ∈ (prepare twice ⟨bc, Periodicity.default⟩ bc).2.coords,
      coordByBits (prepare twice ⟨bc, Periodicity.default⟩ bc).1.info c bits = .ok ![2, 0, 0] ∧
      coordByBits (prepare twice ⟨bc, Periodicity.default⟩ bc).2.info c bits = .ok ![1, 0, 0] := by
  have hp := prepare_eq twice (fun _ => rfl) ⟨[0], Periodicity.default⟩ [0]
  have h0 : place twice 0 = 0 := by simp [place_eq]
  refine ⟨[0], 1, by rw [hp], 0, by rw [hp]; simp [h0], ?_, ?_⟩
  · have := (prepare_periodic_partial twice (fun _ => rfl) ⟨[0], Periodicity.default⟩ [0]).2.2.2.2.1 0 1
    rw [h0] at this
    rw [this, coordByBits_default]
    refine congrArg Res.ok ?_
    ext i
    fin_cases i <;> simp [place_eq, twice, rz_zero, Bits.getP1, Bits.getP2, Bits.getP3]
  · rw [hp, coordByBits_default]
    refine congrArg Res.ok ?_
    ext i
    fin_cases i <;> simp [Bits.getP1, Bits.getP2, Bits.getP3]

/-- planes of constant first coordinate, rectified -/
noncomputable def rectified : Config where
  meshRotZ := 0
  meshScale := 1
  rectify := ![true, false, false]
  rectifyThres := 1 / 1000

/-- **C105 fails** with rectification: a node near the plane is moved, the translation to its image is kept, so that the image is not the rectified one. -/
theorem rectify_moves_image : ∃ c c' : Rot.V3, transCoord Periodicity.default c (-1) = .ok c' ∧
    transCoord (prepare rectified ⟨[c, c'], Periodicity.default⟩ []).1.info (nearPlane rectified c) (-1) ≠ .ok (nearPlane rectified c') ∧
    (prepare rectified ⟨[c, c'], Periodicity.default⟩ []).1.coords = [nearPlane rectified c, nearPlane rectified c'] := by
  have hc : ∀ c, transCoord Periodicity.default c (-1) = .ok (c + ![1, 0, 0]) := by
    intro c
    show Res.ok _ = _
    refine congrArg Res.ok ?_
    show (1 : Rot.M3) *ᵥ (c - 0) + 0 + ![1, 0, 0] = c + ![1, 0, 0]
    rw [sub_zero, one_mulVec, add_zero]
  have hinfo : ∀ cs, prepare rectified ⟨cs, Periodicity.default⟩ [] = (⟨cs.map (nearPlane rectified), Periodicity.default⟩, ⟨[], Periodicity.default⟩) := by
    intro cs
    simp [prepare, rotateStep, scaleStep, rectifyStep, rectified, transformCoords]
  refine ⟨![1 / 2000, 0, 0], _, hc _, ?_, by rw [hinfo]; rfl⟩
  rw [hinfo]
  show transCoord Periodicity.default _ _ ≠ _
  rw [hc]
  intro e
  have e0 := congrFun (Res.ok.inj e) 0
  have h1 : |(1 : ℝ) / 2000| < 1 / 1000 := by rw [abs_of_pos] <;> norm_num
  have h2 : ¬ |(1 : ℝ) / 2000 + 1| < 1 / 1000 := by rw [abs_of_pos] <;> norm_num
  simp only [nearPlane, rectified, Pi.add_apply, Matrix.cons_val_zero, true_and, h1, h2, if_true, if_false] at e0
  norm_num at e0

/-- a quarter of an annulus, configured by its angle -/
noncomputable def annulus : PeriodicConfig where
  translation1 := 0
  translation2 := 0
  translation3 := 0
  center1 := 0
  center2 := 0
  center3 := 0
  angles1 := ![0, 0, 90]
  angles2 := 0
  angles3 := 0

/-- its first periodic rotation takes the first axis to the second -/
example : transCoord (configure annulus Periodicity.default) ![1, 0, 0] (-1) = .ok ![0, 1, 0] := by
  show Res.ok _ = _
  refine congrArg Res.ok ?_
  have h : (90 : ℝ) * (Real.pi / 180) = Real.pi / 2 := by ring
  have e : (configure annulus Periodicity.default).rotation 1 = rotZ 90 := by
    have hx : rotX 0 = 1 := by ext i j; fin_cases i <;> fin_cases j <;> simp [rotX]
    have hy : rotY 0 = 1 := by ext i j; fin_cases i <;> fin_cases j <;> simp [rotY]
    show rotZ 90 * rotY 0 * rotX 0 = _
    rw [hx, hy, Matrix.mul_one, Matrix.mul_one]
  show (configure annulus Periodicity.default).rotation 1 *ᵥ (![1, 0, 0] - 0) + 0 + 0 = _
  rw [e]
  ext i
  fin_cases i <;> simp [rotZ, h]

end DNDSR.Move

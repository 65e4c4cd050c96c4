import Verif.Model.RotFrame
import Verif.Props.Rotation
import Mathlib.Analysis.SpecialFunctions.Trigonometric.Deriv
import Mathlib.Analysis.Calculus.Deriv.Pi

/-!
# The rotating frame (C106)
-/

namespace DNDSR.Frame

open DNDSR.Rot DNDSR.Gas Matrix DNDSR.Per

/-- the rotation about a vector that is not tiny, in components -/
theorem rotate_act (w v : V3) {t : ℝ} (h : smallReal ≤ |t| * Rot.norm w) :
    rotateAxis (t • w) *ᵥ v = ((1 - Real.cos (t * Rot.norm w)) * (w ⬝ᵥ v) / Rot.norm w ^ 2) • w + (Real.sin (t * Rot.norm w) / Rot.norm w) • crossProduct w v +
      Real.cos (t * Rot.norm w) • v := by
  have hsm : 0 < smallReal := by unfold smallReal; positivity
  have hp : 0 < Rot.norm w := by
    by_contra hn
    have h0 : Rot.norm w = 0 := le_antisymm (not_lt.1 hn) (Real.sqrt_nonneg _)
    rw [h0, mul_zero] at h
    linarith
  have hs : Rot.norm w ^ 2 = w 0 ^ 2 + w 1 ^ 2 + w 2 ^ 2 := Real.sq_sqrt (by positivity)
  have hu : ((1 / Rot.norm w) • w) 0 ^ 2 + ((1 / Rot.norm w) • w) 1 ^ 2 + ((1 / Rot.norm w) • w) 2 ^ 2 = 1 := by
    simp only [Pi.smul_apply, smul_eq_mul]
    field_simp
    linarith
  have e : t • w = (t * Rot.norm w) • ((1 / Rot.norm w) • w) := by
    rw [smul_smul]
    congr 1
    field_simp
  rw [e, rotateAxis_unit hu (by rw [abs_mul, abs_of_pos hp]; exact h), turn_form hu]
  have e1 : vecMulVec ((1 / Rot.norm w) • w) ((1 / Rot.norm w) • w) *ᵥ v = ((w ⬝ᵥ v) / Rot.norm w ^ 2) • w := by
    ext i
    simp only [mulVec, dotProduct, Fin.sum_univ_three, vecMulVec_apply, Pi.smul_apply, smul_eq_mul]
    field_simp
  have e2 : omegaM ((1 / Rot.norm w) • w) *ᵥ v = (1 / Rot.norm w) • crossProduct w v := by
    rw [(cross_spec _ v 0).1, map_smul]
    rfl
  rw [add_mulVec, add_mulVec, smul_mulVec, smul_mulVec, smul_mulVec, one_mulVec, e1, e2, smul_smul, smul_smul]
  congr 3
  · ring
  · ring

theorem cross_cross' (w v : V3) : crossProduct w (crossProduct w v) = (w ⬝ᵥ v) • w - (w ⬝ᵥ w) • v := by
  ext i
  fin_cases i <;> simp [cross_apply, dotProduct, Fin.sum_univ_three] <;> ring

/-- a vector that is turned backwards about `w` changes by its cross product with `w` -/
theorem rotate_deriv (w v : V3) {t : ℝ} (h : smallReal < |t| * Rot.norm w) (i : Fin 3) :
    HasDerivAt (fun t => (rotateAxis (t • w) *ᵥ v) i) (crossProduct w (rotateAxis (t • w) *ᵥ v) i) t := by
  have hsm : 0 < smallReal := by unfold smallReal; positivity
  have hp : 0 < Rot.norm w := by
    by_contra hn
    have h0 : Rot.norm w = 0 := le_antisymm (not_lt.1 hn) (Real.sqrt_nonneg _)
    rw [h0, mul_zero] at h
    linarith
  have hs : Rot.norm w ^ 2 = w ⬝ᵥ w := by
    have : Rot.norm w ^ 2 = w 0 ^ 2 + w 1 ^ 2 + w 2 ^ 2 := Real.sq_sqrt (by positivity)
    rw [this]
    simp [dotProduct, Fin.sum_univ_three]
    ring
  have hev : (fun t => (rotateAxis (t • w) *ᵥ v) i) =ᶠ[nhds t] fun t => (1 - Real.cos (t * Rot.norm w)) * (w ⬝ᵥ v) / Rot.norm w ^ 2 * w i +
      Real.sin (t * Rot.norm w) / Rot.norm w * crossProduct w v i + Real.cos (t * Rot.norm w) * v i := by
    have hc : ContinuousAt (fun t : ℝ => |t| * Rot.norm w) t := by fun_prop
    filter_upwards [hc.eventually (lt_mem_nhds h)] with u hu
    rw [rotate_act w v hu.le]
    simp
  have hth : HasDerivAt (fun t : ℝ => t * Rot.norm w) (Rot.norm w) t := by
    simpa using (hasDerivAt_id t).mul_const (Rot.norm w)
  have hcos := hth.cos
  have hsin := hth.sin
  have hd := (((hcos.const_sub 1).mul_const (w ⬝ᵥ v)).div_const (Rot.norm w ^ 2)).mul_const (w i) |>.add
    (((hsin.div_const (Rot.norm w)).mul_const (crossProduct w v i))) |>.add (hcos.mul_const (v i))
  refine (hd.congr_of_eventuallyEq hev).congr_deriv ?_
  rw [rotate_act w v h.le, map_add, map_add, map_smul, map_smul, map_smul, cross_self, smul_zero, zero_add, cross_cross', ← hs]
  simp only [Pi.add_apply, Pi.smul_apply, Pi.sub_apply, smul_eq_mul]
  field_simp
  ring

/-- the source keeps in the plane: three dimensions, or a plane with the axis across it -/
def Planar (d : Nat) (f : Frame) : Prop := d = 3 ∨ d = 2 ∧ f.axis 0 = 0 ∧ f.axis 1 = 0

/-- **C106** (far field) The momentum of a far field that is uniform in the inertial frame changes in the rotating frame as the source of momentum says, at every time at which the frame has
turned by an angle that is not tiny. -/
theorem far_field_source {d : Nat} (hd : d ≤ 3) (f : Frame) (hf : f.enabled = true) (hp : Planar d f) (m : Fin d → ℝ) (rho en : ℝ) {t : ℝ}
    (h : 1 / 10 ^ 10 < |t| * Rot.norm f.vOmega) (i : Fin d) :
    HasDerivAt (fun t => farMomentum hd f t m i) ((source hd f 0 (rho, farMomentum hd f t m, en)).cv i) t := by
  have hn : Rot.norm (-f.vOmega) = Rot.norm f.vOmega := by simp [Rot.norm]
  have hder := rotate_deriv (-f.vOmega) (emb m) (t := t) (by rw [hn]; exact h) (Fin.castLE hd i)
  simp only [farMomentum, hf, if_true]
  refine hder.congr_deriv ?_
  have h0 : cut hd (0 : V3) = 0 := rfl
  simp only [source, hf, if_true, St.cv, St.c0, h0, smul_zero, zero_sub]
  generalize rotateAxis (t • -f.vOmega) *ᵥ emb m = v
  simp only [cut, Pi.neg_apply]
  rcases hp with rfl | ⟨rfl, h1, h2⟩
  · have e : emb (cut hd v) = v := by
      funext j
      simp [emb, cut]
    rw [e, map_neg, LinearMap.neg_apply]
    rfl
  · have w0 : f.vOmega 0 = 0 := by simp [Frame.vOmega, h1]
    have w1 : f.vOmega 1 = 0 := by simp [Frame.vOmega, h2]
    rw [map_neg, LinearMap.neg_apply]
    fin_cases i <;> simp [cross_apply, emb, cut, w0, w1]

/-- **C106** (work) The source of momentum does no other work than that in the energy: the internal energy is not changed. -/
theorem source_work {d : Nat} (hd : d ≤ 3) (f : Frame) (force : V3) (U : St ℝ d) :
    U.cv ⬝ᵥ (source hd f force U).cv = U.c0 * (source hd f force U).c4 ∧ (source hd f force U).c0 = 0 := by
  refine ⟨?_, rfl⟩
  have hz : U.cv ⬝ᵥ cut hd (crossProduct f.vOmega (emb U.cv)) = 0 := by
    have : d = 0 ∨ d = 1 ∨ d = 2 ∨ d = 3 := by omega
    rcases this with rfl | rfl | rfl | rfl
    · simp [dotProduct]
    · simp [dotProduct, cut, emb, cross_apply]
    · simp [dotProduct, cut, emb, cross_apply, Fin.sum_univ_two]
      ring
    · simp [dotProduct, cut, emb, cross_apply, Fin.sum_univ_three]
      ring
  simp only [source, St.c4, St.c0, St.cv] at hz ⊢
  split
  · rw [dotProduct_sub, hz, sub_zero, dotProduct_smul, smul_eq_mul, dotProduct_comm]
  · rw [dotProduct_smul, smul_eq_mul, dotProduct_comm]

/-- the difference of two sources, exactly: the Jacobian of the code, and the change of weight that it leaves out -/
theorem source_diff {d : Nat} (hd : d ≤ 3) (f : Frame) (force : V3) (U V : St ℝ d) :
    source hd f force (U + V) = source hd f force U - (jacobian hd f force).act V + (0, V.c0 • cut hd force, 0) := by
  have hemb : emb (U.cv + V.cv) = emb U.cv + emb V.cv := by
    funext i
    simp only [emb, Pi.add_apply]
    split <;> simp
  have hcut : ∀ a b : V3, cut hd (a + b) = cut hd a + cut hd b := fun a b => rfl
  have hcr : cut hd (crossProduct f.vOmega (emb V.cv)) = (crossVecToMat f.vOmega).submatrix (Fin.castLE hd) (Fin.castLE hd) *ᵥ V.cv := by
    rw [← (cross_spec f.vOmega (emb V.cv) 0).1]
    funext i
    have : d = 0 ∨ d = 1 ∨ d = 2 ∨ d = 3 := by omega
    rcases this with rfl | rfl | rfl | rfl
    · exact i.elim0
    · simp [cut, mulVec, dotProduct, emb, Fin.sum_univ_three]
    · simp [cut, mulVec, dotProduct, emb, Fin.sum_univ_three, Fin.sum_univ_two]
    · simp [cut, mulVec, dotProduct, emb, Fin.sum_univ_three]
  have hneg : crossVecToMat (-f.vOmega) = -crossVecToMat f.vOmega := by
    ext i j
    fin_cases i <;> fin_cases j <;> simp [crossVecToMat]
  have hneg' : (crossVecToMat (-f.vOmega)).submatrix (Fin.castLE hd) (Fin.castLE hd) = -(crossVecToMat f.vOmega).submatrix (Fin.castLE hd) (Fin.castLE hd) := by
    rw [hneg]; rfl
  have hcv : (U + V).cv = U.cv + V.cv := rfl
  have hc0 : (U + V).c0 = U.c0 + V.c0 := rfl
  refine Prod.ext ?_ (Prod.ext ?_ ?_)
  · simp [source, Jac.act]
  · show (source hd f force (U + V)).cv = (source hd f force U).cv - (jacobian hd f force).mm *ᵥ V.cv + V.c0 • cut hd force
    simp only [source, jacobian, St.cv] at *
    cases f.enabled
    · simp only [Bool.false_eq_true, if_false, zero_mulVec, sub_zero]
      rw [hc0, add_smul]
    · simp only [if_true]
      rw [hcv, hc0, hemb, map_add, hcut, hcr, hneg', neg_neg, add_smul]
      abel
  · show (source hd f force (U + V)).c4 = (source hd f force U).c4 - (jacobian hd f force).em ⬝ᵥ V.cv + 0
    simp only [source, jacobian, St.c4, St.cv] at *
    rw [hcv, dotProduct_add, neg_dotProduct]
    ring

/-- **C106** (Jacobian) The Jacobian is minus the derivative of the source, which is linear, if there is no constant force. -/
theorem jacobian_spec_partial {d : Nat} (hd : d ≤ 3) (f : Frame) (U V : St ℝ d) :
    source hd f 0 (U + V) = source hd f 0 U - (jacobian hd f 0).act V := by
  rw [source_diff]
  have h0 : cut hd (0 : V3) = 0 := rfl
  rw [h0, smul_zero]
  exact add_zero _

/-- **C106 fails** with a constant force: the Jacobian has no entry for the weight, which depends on the density. -/
theorem weight_not_in_jacobian {d : Nat} (hd : d ≤ 3) (f : Frame) (force : V3) (hforce : cut hd force ≠ 0) :
    ∃ U V : St ℝ d, source hd f force (U + V) ≠ source hd f force U - (jacobian hd f force).act V := by
  refine ⟨0, (1, 0, 0), fun e => hforce ?_⟩
  rw [source_diff] at e
  have e2 : ((0 : ℝ), St.c0 ((1, 0, 0) : St ℝ d) • cut hd force, (0 : ℝ)) = (0 : St ℝ d) := add_eq_left.1 e
  have := congrArg (fun x : St ℝ d => x.2.1) e2
  simpa [St.c0] using this

theorem norm_sq (v : V3) : Rot.norm v ^ 2 = v ⬝ᵥ v := by
  have : Rot.norm v ^ 2 = v 0 ^ 2 + v 1 ^ 2 + v 2 ^ 2 := Real.sq_sqrt (by positivity)
  rw [this]
  simp [dotProduct, Fin.sum_univ_three]
  ring

/-- **C106** (radius) For a unit axis through the origin and a point off the axis, the cylindrical frame is a proper rotation whose columns are the direction away from the axis, the direction of the
motion, and the axis; the frame moves the point along the second one with the rate of rotation times the distance from the axis. -/
theorem rtz_spec_partial (f : Frame) (hf : f.enabled = true) (ha : f.axis ⬝ᵥ f.axis = 1) (hc : ∃ k : ℝ, f.center = k • f.axis) (x : V3) (hx : f.rVec x ≠ 0) :
    Proper (f.rtz x) ∧ (f.rtz x)ᵀ *ᵥ f.rVec x = ![Rot.norm (f.rVec x), 0, 0] ∧ (f.rtz x)ᵀ *ᵥ f.axis = ![0, 0, 1] ∧
    (f.rtz x)ᵀ *ᵥ vGrid le_rfl f x = ![0, f.speed * Rot.norm (f.rVec x), 0] := by
  have hpos : 0 < Rot.norm (f.rVec x) := by
    have hnn : 0 ≤ Rot.norm (f.rVec x) := Real.sqrt_nonneg _
    rcases hnn.lt_or_eq with h | h
    · exact h
    · exfalso
      have := norm_sq (f.rVec x)
      rw [← h] at this
      have h0 : f.rVec x ⬝ᵥ f.rVec x = 0 := by rw [← this]; ring
      rw [dotProduct, Fin.sum_univ_three] at h0
      refine hx (funext fun i => ?_)
      have q0 := mul_self_nonneg (f.rVec x 0)
      have q1 := mul_self_nonneg (f.rVec x 1)
      have q2 := mul_self_nonneg (f.rVec x 2)
      fin_cases i
      · exact mul_self_eq_zero.1 (show f.rVec x 0 * f.rVec x 0 = 0 by linarith)
      · exact mul_self_eq_zero.1 (show f.rVec x 1 * f.rVec x 1 = 0 by linarith)
      · exact mul_self_eq_zero.1 (show f.rVec x 2 * f.rVec x 2 = 0 by linarith)
  set rn : V3 := (1 / Rot.norm (f.rVec x)) • f.rVec x with hrn
  clear_value rn
  have hcol : f.rtz x = Matrix.of fun i j => if j = 0 then rn i else if j = 1 then crossProduct f.axis rn i else f.axis i := by
    simp only [Frame.rtz, normalized, if_pos hpos, hrn]
  have hperp : f.axis ⬝ᵥ f.rVec x = 0 := by
    rw [Frame.rVec, dotProduct_sub, dotProduct_smul, ha, smul_eq_mul, mul_one, dotProduct_comm x, sub_self]
  have hr1 : rn ⬝ᵥ rn = 1 := by
    rw [hrn, smul_dotProduct, dotProduct_smul, ← norm_sq]
    simp only [smul_eq_mul]
    field_simp
  have hr2 : f.axis ⬝ᵥ rn = 0 := by rw [hrn, dotProduct_smul, hperp, smul_zero]
  -- in components
  have a1 : f.axis 0 * f.axis 0 + f.axis 1 * f.axis 1 + f.axis 2 * f.axis 2 = 1 := by simpa [dotProduct, Fin.sum_univ_three] using ha
  have a2 : rn 0 * rn 0 + rn 1 * rn 1 + rn 2 * rn 2 = 1 := by simpa [dotProduct, Fin.sum_univ_three] using hr1
  have a3 : f.axis 0 * rn 0 + f.axis 1 * rn 1 + f.axis 2 * rn 2 = 0 := by simpa [dotProduct, Fin.sum_univ_three] using hr2
  have hxr : f.rVec x = Rot.norm (f.rVec x) • rn := by
    rw [hrn, smul_smul]
    rw [mul_one_div, div_self hpos.ne', one_smul]
  have hcr : (crossProduct f.axis rn) ⬝ᵥ (crossProduct f.axis rn) = 1 := by
    have : (crossProduct f.axis rn) ⬝ᵥ (crossProduct f.axis rn) = (f.axis ⬝ᵥ f.axis) * (rn ⬝ᵥ rn) - (f.axis ⬝ᵥ rn) * (rn ⬝ᵥ f.axis) := cross_dot_cross _ _ _ _
    rw [this, ha, hr1, hr2]; ring
  have hc1 : rn ⬝ᵥ crossProduct f.axis rn = 0 := dot_cross_self _ _
  have hc2 : f.axis ⬝ᵥ crossProduct f.axis rn = 0 := dot_self_cross _ _
  have act : ∀ v : V3, (f.rtz x)ᵀ *ᵥ v = ![rn ⬝ᵥ v, crossProduct f.axis rn ⬝ᵥ v, f.axis ⬝ᵥ v] := by
    intro v
    rw [hcol]
    ext i
    fin_cases i <;> simp [mulVec, dotProduct, Fin.sum_univ_three]
  refine ⟨⟨?_, ?_⟩, ?_, ?_, ?_⟩
  · have h1 : (f.rtz x)ᵀ * f.rtz x = 1 := by
      ext i j
      have := congrFun (act (fun k => f.rtz x k j)) i
      have e : ((f.rtz x)ᵀ * f.rtz x) i j = ((f.rtz x)ᵀ *ᵥ fun k => f.rtz x k j) i := rfl
      rw [e, this, hcol]
      have k1 : crossProduct f.axis rn ⬝ᵥ rn = 0 := by rw [dotProduct_comm]; exact hc1
      have k2 : crossProduct f.axis rn ⬝ᵥ f.axis = 0 := by rw [dotProduct_comm]; exact hc2
      have k3 : rn ⬝ᵥ f.axis = 0 := by rw [dotProduct_comm]; exact hr2
      fin_cases j
      · show ![rn ⬝ᵥ rn, crossProduct f.axis rn ⬝ᵥ rn, f.axis ⬝ᵥ rn] i = _
        rw [hr1, k1, hr2]; fin_cases i <;> simp
      · show ![rn ⬝ᵥ crossProduct f.axis rn, crossProduct f.axis rn ⬝ᵥ crossProduct f.axis rn, f.axis ⬝ᵥ crossProduct f.axis rn] i = _
        rw [hc1, hcr, hc2]; fin_cases i <;> simp
      · show ![rn ⬝ᵥ f.axis, crossProduct f.axis rn ⬝ᵥ f.axis, f.axis ⬝ᵥ f.axis] i = _
        rw [k3, k2, ha]; fin_cases i <;> simp
    exact ⟨h1, mul_eq_one_comm.1 h1⟩
  · have : (f.rtz x).det = (crossProduct f.axis rn) ⬝ᵥ (crossProduct f.axis rn) := by
      rw [hcol, det_fin_three]
      simp [cross_apply, dotProduct, Fin.sum_univ_three]
      ring
    rw [this, hcr]
  · have k : ∀ u : V3, u ⬝ᵥ f.rVec x = Rot.norm (f.rVec x) * (u ⬝ᵥ rn) := by
      intro u
      conv_lhs => rw [hxr]
      rw [dotProduct_smul, smul_eq_mul]
    rw [act, k, k, k, hr1, hr2, dotProduct_comm _ rn, hc1]
    simp
  · rw [act, ha, dotProduct_comm rn, hr2, dotProduct_comm _ f.axis, hc2]
  · obtain ⟨k, hk⟩ := hc
    have hv : vGrid le_rfl f x = (f.speed * Rot.norm (f.rVec x)) • crossProduct f.axis rn := by
      have e1 : vGrid le_rfl f x = crossProduct f.vOmega (x - f.center) := by
        simp only [vGrid, hf, if_true]
        rfl
      have e2 : x - f.center = f.rVec x + (x ⬝ᵥ f.axis - k) • f.axis := by
        rw [hk, Frame.rVec, sub_smul]
        abel
      rw [e1, e2, Frame.vOmega, map_smul, LinearMap.smul_apply, map_add, map_smul, cross_self, smul_zero, add_zero]
      conv_lhs => rw [hxr]
      rw [map_smul, smul_smul]
    rw [act, hv, dotProduct_smul, dotProduct_smul, dotProduct_smul, hc1, hcr, hc2]
    simp

/-- a frame about an axis beside the origin -/
noncomputable def beside : Frame := ⟨true, ![0, 0, 1], ![1, 0, 0], 30 / Real.pi⟩

/-- **C106 fails** for an axis that does not pass through the origin: the distance from the axis ignores the center, so that a point on the axis, which does not move, has a distance, and a
moving one has none. -/
theorem radius_ignores_center : Rot.norm (beside.rVec ![1, 0, 0]) = 1 ∧ vGrid le_rfl beside ![1, 0, 0] = (0 : Fin 3 → ℝ) ∧
    Rot.norm (beside.rVec 0) = 0 ∧ vGrid le_rfl beside 0 ≠ (0 : Fin 3 → ℝ) := by
  have hs : beside.speed = 1 := by
    have := Real.pi_ne_zero
    simp only [Frame.speed, beside]
    field_simp
    norm_num
  have hw : beside.vOmega = ![0, 0, 1] := by rw [Frame.vOmega, hs, one_smul]; rfl
  refine ⟨?_, ?_, ?_, ?_⟩
  · have : beside.rVec ![1, 0, 0] = ![1, 0, 0] := by
      simp [Frame.rVec, beside, dotProduct, Fin.sum_univ_three]
    rw [this]
    simp [Rot.norm]
  · have : (![1, 0, 0] : V3) - beside.center = 0 := by simp [beside]
    simp only [vGrid, this, map_zero]
    simp [beside]
    rfl
  · have : beside.rVec 0 = 0 := by simp [Frame.rVec]
    rw [this]
    simp [Rot.norm]
  · intro e
    have e1 := congrFun e 1
    have h1 : vGrid le_rfl beside 0 1 = crossProduct ![0, 0, 1] ((0 : V3) - ![1, 0, 0]) 1 := by
      simp only [vGrid, hw]
      rfl
    rw [h1] at e1
    simp [cross_apply] at e1

/-- **C106 fails** in the plane for an axis in the plane: the far field is turned out of it and loses momentum, while the source is zero. -/
theorem tilted_axis_plane : ∃ (f : Frame) (m : Fin 2 → ℝ), f.enabled = true ∧ farMomentum (by norm_num) f Real.pi m = -m ∧ m ≠ 0 ∧
    ∀ rho en, source (by norm_num) f 0 (rho, m, en) = (0 : St ℝ 2) := by
  have hs : (30 / Real.pi) * (2 * Real.pi / 60) = 1 := by
    have := Real.pi_ne_zero
    field_simp
    norm_num
  have hw : Frame.vOmega ⟨true, ![1, 0, 0], 0, 30 / Real.pi⟩ = ![1, 0, 0] := by
    simp only [Frame.vOmega, Frame.speed, hs, one_smul]
  have hn : Rot.norm (-![1, 0, 0] : V3) = 1 := by simp [Rot.norm]
  refine ⟨⟨true, ![1, 0, 0], 0, 30 / Real.pi⟩, ![0, 1], rfl, ?_, ?_, ?_⟩
  · simp only [farMomentum, if_true, hw]
    have hb : smallReal ≤ |Real.pi| * Rot.norm (-![1, 0, 0] : V3) := by
      rw [hn, abs_of_pos Real.pi_pos, mul_one]
      have := Real.pi_gt_three
      have h2 : smallReal ≤ 1 := by unfold smallReal; norm_num
      linarith
    rw [rotate_act _ _ hb, hn, mul_one, Real.cos_pi, Real.sin_pi]
    funext i
    fin_cases i <;> simp [cut, emb, dotProduct, Fin.sum_univ_three]
  · intro e
    have := congrFun e 1
    simp at this
  · intro rho en
    have h0 : cut (d := 2) (by norm_num) (0 : V3) = 0 := rfl
    simp only [source, if_true, hw, h0, St.cv, St.c0, smul_zero, zero_dotProduct, zero_sub]
    refine Prod.ext rfl (Prod.ext ?_ rfl)
    funext i
    fin_cases i <;> simp [cut, emb, cross_apply]

/-- a rotor about the third axis: at time one it has turned by one radian -/
example : ∃ f : Frame, f.enabled = true ∧ Planar 2 f ∧ Planar 3 f ∧ f.axis ⬝ᵥ f.axis = 1 ∧ f.rVec ![1, 0, 0] ≠ 0 ∧ 1 / 10 ^ 10 < |(1 : ℝ)| * Rot.norm f.vOmega := by
  refine ⟨⟨true, ![0, 0, 1], 0, 30 / Real.pi⟩, rfl, Or.inr ⟨rfl, rfl, rfl⟩, Or.inl rfl, by simp [dotProduct, Fin.sum_univ_three], ?_, ?_⟩
  · intro e
    have := congrFun e 0
    simp [Frame.rVec] at this
  · have hs : (30 / Real.pi) * (2 * Real.pi / 60) = 1 := by
      have := Real.pi_ne_zero
      field_simp
      norm_num
    have hw : Frame.vOmega ⟨true, ![0, 0, 1], 0, 30 / Real.pi⟩ = ![0, 0, 1] := by
      simp only [Frame.vOmega, Frame.speed, hs, one_smul]
    rw [hw]
    simp [Rot.norm]
    norm_num

end DNDSR.Frame

import Verif.Model.TurbKOmega
import Verif.Props.TurbVisc

/-! # C112, the k-omega models -/

namespace DNDSR.Turb

open Finset

variable {d : Nat}

theorem tanh_unit {x : ℝ} (h : 0 ≤ x) : 0 ≤ Real.tanh x ∧ Real.tanh x < 1 := by
  rw [Real.tanh_eq_sinh_div_cosh]
  refine ⟨div_nonneg (Real.sinh_nonneg_iff.2 h) (Real.cosh_pos x).le, ?_⟩
  rw [div_lt_one (Real.cosh_pos x)]
  have := Real.cosh_sub_sinh x
  linarith [Real.exp_pos (-x)]

/-- **C112** (shear stress transport)  Turbulent viscosity is positive even for negative turbulent variables, at most `1e5` times that of the gas, at most density times energy over specific dissipation,
and near walls, as far as the blending function says, the stress that it makes with the vorticity is at most `0.31` times density times energy. -/
theorem sstMut_bounds {u : St d} {muf : ℝ} (hr : 0 < u.rho) (hf : 0 < muf) (g : Gr d) (dist : ℝ) :
    0 < sstMut u g muf dist ∧ sstMut u g muf dist ≤ 10 ^ 5 * muf ∧
      sstMut u g muf dist * max (u.e / u.rho) vs4 ≤ u.rho * max (u.k / u.rho) vs4 ∧
      sstMut u g muf dist * (vorticity (veloGrad u g) * sstF2 (max (u.k / u.rho) vs4) (max (u.e / u.rho) vs4) (muf / u.rho) dist) ≤ 31 / 100 * (u.rho * max (u.k / u.rho) vs4) := by
  have hv := vs4_pos
  unfold sstMut
  simp only
  set k := max (u.k / u.rho) vs4
  set om := max (u.e / u.rho) vs4
  have hk : 0 < k := lt_max_of_lt_right hv
  have ho : 0 < om := lt_max_of_lt_right hv
  set X := vorticity (veloGrad u g) * sstF2 k om (muf / u.rho) dist
  have hM : 0 < max X (31 / 100 * om) := lt_max_of_lt_right (by positivity)
  have hm0 : 0 < min (31 / 100 * k / max X (31 / 100 * om) * u.rho) (10 ^ 5 * muf) := lt_min (by positivity) (by positivity)
  have key : min (31 / 100 * k / max X (31 / 100 * om) * u.rho) (10 ^ 5 * muf) * max X (31 / 100 * om) ≤ 31 / 100 * (u.rho * k) := by
    calc _ ≤ 31 / 100 * k / max X (31 / 100 * om) * u.rho * max X (31 / 100 * om) := mul_le_mul_of_nonneg_right (min_le_left _ _) hM.le
      _ = 31 / 100 * (u.rho * k) := by field_simp
  set m := min (31 / 100 * k / max X (31 / 100 * om) * u.rho) (10 ^ 5 * muf)
  refine ⟨hm0, min_le_right _ _, ?_, ?_⟩
  · have := (mul_le_mul_of_nonneg_left (le_max_right X (31 / 100 * om)) hm0.le).trans key
    linarith
  · exact (mul_le_mul_of_nonneg_left (le_max_left X (31 / 100 * om)) hm0.le).trans key

/-- **C112** (shear stress transport)  The blending functions lie between zero and one. -/
theorem sst_blend {rho k om nu dist : ℝ} (cross : ℝ) :
    (0 ≤ sstF2 k om nu dist ∧ sstF2 k om nu dist < 1) ∧ 0 ≤ sstF1 rho k om nu dist cross ∧ sstF1 rho k om nu dist cross < 1 :=
  ⟨tanh_unit (by positivity), tanh_unit (by positivity)⟩

/-- **C112** (shear stress transport)  The fluxes of the turbulent quantities are down the gradient, with coefficients between those of the two models that are blended. -/
theorem sstFlux_down (u : St d) (gk ge n : Fin d → ℝ) {mutIn : ℝ} (dist muf : ℝ) (hm : 0 ≤ mutIn) : ∃ a b,
    muf + 85 / 100 * mutIn ≤ a ∧ a ≤ muf + mutIn ∧ muf + 5 / 10 * mutIn ≤ b ∧ b ≤ muf + 856 / 1000 * mutIn ∧
    sstFlux u gk ge n mutIn dist muf = (a * ∑ i, gk i * n i, b * ∑ i, ge i * n i) := by
  unfold sstFlux
  simp only
  obtain ⟨-, h0, h1⟩ := sst_blend (rho := u.rho) (k := max (u.k / u.rho) vs4) (om := max (u.e / u.rho) vs4) (nu := muf / u.rho) (dist := dist) (∑ i, gk i * ge i)
  set F := sstF1 u.rho (max (u.k / u.rho) vs4) (max (u.e / u.rho) vs4) (muf / u.rho) dist (∑ i, gk i * ge i)
  have e1 : 0 ≤ mutIn * F := mul_nonneg hm h0
  have e2 : mutIn * F ≤ mutIn := by nlinarith
  refine ⟨muf + mutIn * (85 / 100 * F + 1 * (1 - F)), muf + mutIn * (5 / 10 * F + 856 / 1000 * (1 - F)), ?_, ?_, ?_, ?_, ?_⟩
  · linarith
  · linarith
  · linarith
  · linarith
  · rw [mul_comm, mul_comm (∑ i, ge i * n i)]

/-- **C112** (Wilcox)  Turbulent viscosity is positive even for negative turbulent variables, at most `1e5` times that of the gas, at most density times energy over specific dissipation, and the stress that
it makes with the strain is at most `0.3 * 8 / 7` times density times energy. -/
theorem wilcoxMut_bounds {u : St d} {muf : ℝ} (hr : 0 < u.rho) (hf : 0 < muf) (g : Gr d) :
    0 < wilcoxMut u g muf ∧ wilcoxMut u g muf ≤ 10 ^ 5 * muf ∧
      wilcoxMut u g muf * max (u.e / u.rho) vs4 ≤ u.rho * max (u.k / u.rho) (vs4 ^ 2) ∧
      wilcoxMut u g muf * Real.sqrt ((∑ i, ∑ j, (veloGrad u g i j + veloGrad u g j i) ^ 2) / 2) ≤ 3 / 10 * (8 / 7) * (u.rho * max (u.k / u.rho) (vs4 ^ 2)) := by
  have hv := vs4_pos
  unfold wilcoxMut
  simp only
  set k := max (u.k / u.rho) (vs4 ^ 2)
  set om := max (u.e / u.rho) vs4
  have hk : 0 < k := lt_max_of_lt_right (by positivity)
  have ho : 0 < om := lt_max_of_lt_right hv
  set Q := ∑ i, ∑ j, (veloGrad u g i j + veloGrad u g j i) ^ 2
  have hQ : 0 ≤ Q := Finset.sum_nonneg fun i _ => Finset.sum_nonneg fun j _ => sq_nonneg _
  have hs : Real.sqrt (5 / 10 * Q / (9 / 100)) = 10 / 3 * Real.sqrt (Q / 2) := by
    rw [show 5 / 10 * Q / (9 / 100) = (10 / 3) ^ 2 * (Q / 2) by ring, Real.sqrt_mul (by positivity), Real.sqrt_sq (by norm_num)]
  rw [hs]
  set q := Real.sqrt (Q / 2)
  have hM : 0 < max om (7 / 8 * (10 / 3 * q)) := lt_max_of_lt_left ho
  have hm0 : 0 < min (k / max om (7 / 8 * (10 / 3 * q)) * u.rho) (10 ^ 5 * muf) := lt_min (by positivity) (by positivity)
  have key : min (k / max om (7 / 8 * (10 / 3 * q)) * u.rho) (10 ^ 5 * muf) * max om (7 / 8 * (10 / 3 * q)) ≤ u.rho * k := by
    calc _ ≤ k / max om (7 / 8 * (10 / 3 * q)) * u.rho * max om (7 / 8 * (10 / 3 * q)) := mul_le_mul_of_nonneg_right (min_le_left _ _) hM.le
      _ = u.rho * k := by field_simp
  set m := min (k / max om (7 / 8 * (10 / 3 * q)) * u.rho) (10 ^ 5 * muf)
  refine ⟨hm0, min_le_right _ _, ?_, ?_⟩
  · exact (mul_le_mul_of_nonneg_left (le_max_left _ _) hm0.le).trans key
  · have := (mul_le_mul_of_nonneg_left (le_max_right om (7 / 8 * (10 / 3 * q))) hm0.le).trans key
    linarith

/-- **C112** (k-omega)  Both viscosities are the same in every frame that moves with constant velocity. -/
theorem komega_boost {u : St d} (hr : u.rho ≠ 0) (g : Gr d) (w : Fin d → ℝ) (muf dist : ℝ) :
    sstMut (u.boost w) (g.boost w) muf dist = sstMut u g muf dist ∧ wilcoxMut (u.boost w) (g.boost w) muf = wilcoxMut u g muf := by
  constructor
  · unfold sstMut
    rw [veloGrad_boost hr]
    rfl
  · unfold wilcoxMut
    rw [veloGrad_boost hr]
    rfl

theorem vorticity_none : vorticity (fun _ _ => 0 : Fin d → Fin d → ℝ) = 0 := by simp [vorticity]

/-- **C112** (k-omega)  Where nothing changes in space and the bounds do not act, both models give density times energy over specific dissipation. -/
theorem komega_plain {u : St d} {muf dist : ℝ} (hr : 0 < u.rho) (hk : vs4 ≤ u.k / u.rho) (ho : vs4 ≤ u.e / u.rho) (hb : u.rho * u.k / u.e ≤ 10 ^ 5 * muf) :
    sstMut u Gr.none muf dist = u.rho * u.k / u.e ∧ wilcoxMut u Gr.none muf = u.rho * u.k / u.e := by
  have hv := vs4_pos
  have ho' : 0 < u.e / u.rho := hv.trans_le ho
  have he : 0 < u.e := by
    have := mul_pos ho' hr
    rwa [div_mul_cancel₀ _ hr.ne'] at this
  have hv2 : vs4 ^ 2 ≤ vs4 := by
    have : vs4 ≤ 1 := by unfold vs4; norm_num
    nlinarith
  have e1 : u.k / u.rho / (u.e / u.rho) * u.rho = u.rho * u.k / u.e := by field_simp
  constructor
  · unfold sstMut
    rw [veloGrad_none]
    simp only [max_eq_left hk, max_eq_left ho, vorticity_none, zero_mul]
    rw [max_eq_right (by positivity), mul_div_mul_left _ _ (by norm_num), e1]
    exact min_eq_left hb
  · unfold wilcoxMut
    rw [veloGrad_none]
    simp only [max_eq_left (hv2.trans hk), max_eq_left ho]
    have : max (u.e / u.rho) (7 / 8 * Real.sqrt (5 / 10 * (∑ _i : Fin d, ∑ _j : Fin d, ((0 : ℝ) + 0) ^ 2) / (9 / 100))) = u.e / u.rho := by
      simp [ho'.le]
    rw [this, e1]
    exact min_eq_left hb

/-- a state that meets the hypotheses -/
example : sstMut (d := 2) ⟨1, fun _ => 1, 1, 2⟩ Gr.none 1 1 = 1 / 2 := by
  have := (komega_plain (d := 2) (u := ⟨1, fun _ => 1, 1, 2⟩) (muf := 1) (dist := 1) (by norm_num) (by unfold vs4; norm_num) (by unfold vs4; norm_num) (by norm_num)).1
  rw [this]
  norm_num

/-- **C112** (rotation)  The size of rotation vanishes exactly for velocity gradients that are symmetric, those without rotation. -/
theorem vorticity_eq_zero (G : Fin d → Fin d → ℝ) : vorticity G = 0 ↔ ∀ i j, G i j = G j i := by
  have h2 : Real.sqrt 2 ≠ 0 := by positivity
  have hn : ∀ i, 0 ≤ ∑ j, ((G j i - G i j) * (1 / 2)) ^ 2 := fun i => Finset.sum_nonneg fun j _ => sq_nonneg _
  unfold vorticity
  rw [mul_eq_zero, or_iff_left h2, Real.sqrt_eq_zero (Finset.sum_nonneg fun i _ => hn i), Finset.sum_eq_zero_iff_of_nonneg fun i _ => hn i]
  constructor
  · intro h i j
    have := (Finset.sum_eq_zero_iff_of_nonneg fun j _ => sq_nonneg _).1 (h i (Finset.mem_univ i)) j (Finset.mem_univ j)
    have := pow_eq_zero_iff (two_ne_zero) |>.1 this
    linarith
  · intro h i _
    refine Finset.sum_eq_zero fun j _ => ?_
    rw [h i j]
    ring

end DNDSR.Turb

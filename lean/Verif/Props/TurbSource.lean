import Verif.Model.TurbSource
import Verif.Props.TurbKOmega

/-! # C113: the sources of the k-omega models -/

namespace DNDSR.Turb

open Finset

variable {d : Nat}

theorem fBeta_bounds (G : Fin d → Fin d → ℝ) (om : ℝ) : 85 / 100 ≤ fBeta G om ∧ fBeta G om ≤ 1 := by
  unfold fBeta
  simp only
  set c := |(∑ i, ∑ j, (∑ l, (G l i - G i l) * (G j l - G l j)) * (G i j + G j i)) * (125 / 1000) / (9 / 100 * om) ^ 3|
  have hc : 0 ≤ c := abs_nonneg _
  rw [le_div_iff₀ (by positivity), div_le_one (by positivity)]
  constructor <;> linarith

/-- **C113** (Wilcox, energy)  For every state with positive density, whatever the gradients: turbulent energy falls slower than by dissipation, and production is at most twenty times dissipation. -/
theorem wilcox_energy {u : St d} (hr : 0 < u.rho) (g : Gr d) (muf : ℝ) :
    -(9 / 100 * u.rho * max (u.k / u.rho) (vs4 ^ 2) * max (u.e / u.rho) vs4) < (wilcoxSource 0 u g muf).1 ∧
      (wilcoxSource 0 u g muf).1 ≤ 19 * (9 / 100 * u.rho * max (u.k / u.rho) (vs4 ^ 2) * max (u.e / u.rho) vs4) := by
  have hv := vs4_pos
  unfold wilcoxSource
  simp only [if_true]
  have hk : 0 < max (u.k / u.rho) (vs4 ^ 2) := lt_max_of_lt_right (by positivity)
  have ho : 0 < max (u.e / u.rho) vs4 := lt_max_of_lt_right hv
  set k := max (u.k / u.rho) (vs4 ^ 2)
  set om := max (u.e / u.rho) vs4
  set P := rawProduction u.k (wilcoxMut u g muf) (veloGrad u g)
  have h1 : 0 < min (max P (1 / 10 ^ 200)) (9 / 100 * u.rho * k * om * 20) := lt_min (lt_max_of_lt_right (by positivity)) (by positivity)
  have h2 : min (max P (1 / 10 ^ 200)) (9 / 100 * u.rho * k * om * 20) ≤ 9 / 100 * u.rho * k * om * 20 := min_le_right _ _
  constructor <;> linarith

theorem rawProduction_none (uk m : ℝ) : rawProduction uk m (fun _ _ => 0 : Fin d → Fin d → ℝ) = 0 := by simp [rawProduction]

theorem crossDiff_none (u : St d) : crossDiff u Gr.none = 0 := by simp [crossDiff, primGrad, Gr.none]

/-- **C113** (Wilcox, decay)  Where nothing changes in space the specific dissipation decays by its law, the rate `0.0708` times its square. -/
theorem wilcox_decay (u : St d) (muf : ℝ) : (wilcoxSource 0 u Gr.none muf).2 = -(708 / 10000 * u.rho * max (u.e / u.rho) vs4 ^ 2) := by
  unfold wilcoxSource
  simp only [veloGrad_none, crossDiff_none, rawProduction_none]
  have : fBeta (fun _ _ => 0 : Fin d → Fin d → ℝ) (max (u.e / u.rho) vs4) = 1 := by simp [fBeta]
  rw [this]
  simp

/-- **C113** (rates)  What both models hand to the implicit scheme as rates of decay is positive. -/
theorem komega_rates {u : St d} (g : Gr d) (muf dist : ℝ) :
    (0 < (wilcoxSource 1 u g muf).1 ∧ 0 < (wilcoxSource 1 u g muf).2) ∧ 0 < (sstSource 1 u g muf dist).1 ∧ 0 < (sstSource 1 u g muf dist).2 := by
  have hv := vs4_pos
  have ho : 0 < max (u.e / u.rho) vs4 := lt_max_of_lt_right hv
  refine ⟨⟨?_, ?_⟩, ?_, ?_⟩
  · unfold wilcoxSource; simp only [one_ne_zero, if_false]; positivity
  · unfold wilcoxSource; simp only [one_ne_zero, if_false]
    have := (fBeta_bounds (veloGrad u g) (max (u.e / u.rho) vs4)).1
    have : 0 < fBeta (veloGrad u g) (max (u.e / u.rho) vs4) := by linarith
    positivity
  · unfold sstSource; simp only [one_ne_zero, if_false]; positivity
  · unfold sstSource; simp only [one_ne_zero, if_false]
    obtain ⟨-, h0, h1⟩ := sst_blend (rho := u.rho) (k := max (u.k / u.rho) vs4) (om := max (u.e / u.rho) vs4) (nu := muf / u.rho) (dist := dist) (crossDiff u g)
    set F := sstF1 u.rho (max (u.k / u.rho) vs4) (max (u.e / u.rho) vs4) (muf / u.rho) dist (crossDiff u g)
    have : 0 < 75 / 1000 * F + 828 / 10000 * (1 - F) := by linarith
    positivity

/-- **C113, partial** (shear stress transport, energy)  Production is at most twenty times dissipation.  Missing: it may be negative (`sst_lower_lost`). -/
theorem sst_energy_partial (u : St d) (g : Gr d) (muf dist : ℝ) :
    (sstSource 0 u g muf dist).1 ≤ 19 * (9 / 100 * u.rho * max (u.k / u.rho) vs4 * max (u.e / u.rho) vs4) := by
  unfold sstSource
  simp only [if_true]
  have := min_le_right (rawProduction u.k (sstMut u g muf dist) (veloGrad u g)) (20 * (9 / 100) * u.rho * max (u.k / u.rho) vs4 * max (u.e / u.rho) vs4)
  linarith

/-- a gas that expands in two directions -/
noncomputable def expanding : Gr 2 := ⟨fun _ => 0, fun i j => if i = j then 1 else 0, fun _ => 0, fun _ => 0⟩

/-- **C113 fails** for shear stress transport: the lower limit of production is lost, since the upper limit starts again from the raw value.  In a gas that expands, turbulent energy falls faster than by dissipation. -/
theorem sst_lower_lost (muf dist : ℝ) (hf : 0 < muf) : (sstSource 0 ⟨1, fun _ => 0, 1, 2⟩ expanding muf dist).1 < -(9 / 100 * 1 * 1 * 2) := by
  set u : St 2 := ⟨1, fun _ => 0, 1, 2⟩ with hu
  have hv1 : vs4 ≤ 1 := by unfold vs4; norm_num
  obtain ⟨hm0, -, hm, -⟩ := sstMut_bounds (u := u) (muf := muf) (by norm_num [hu]) hf expanding dist
  have hk : max (u.k / u.rho) vs4 = 1 := by rw [hu]; simp [hv1]
  have ho : max (u.e / u.rho) vs4 = 2 := by rw [hu]; simp; linarith
  rw [hk, ho] at hm
  have hm' : sstMut u expanding muf dist ≤ 1 / 2 := by
    have : u.rho = 1 := rfl
    rw [this] at hm
    linarith
  have hG : veloGrad u expanding = fun i j => if i = j then 1 else 0 := by
    funext i j
    simp [veloGrad, expanding, hu]
  unfold sstSource
  simp only [if_true, hk, ho]
  have hP : rawProduction u.k (sstMut u expanding muf dist) (veloGrad u expanding) = 4 / 3 * (sstMut u expanding muf dist - 1) := by
    rw [hG]
    unfold rawProduction strain
    have : u.k = 1 := rfl
    rw [this]
    simp
    ring
  have hmin := min_le_left (rawProduction u.k (sstMut u expanding muf dist) (veloGrad u expanding)) (20 * (9 / 100) * u.rho * 1 * 2)
  rw [hP] at hmin ⊢
  have : u.rho = 1 := rfl
  rw [this] at hmin ⊢
  linarith

theorem sqrt_009 : Real.sqrt (9 / 100) = 3 / 10 := by
  rw [show (9 / 100 : ℝ) = (3 / 10) ^ 2 by norm_num, Real.sqrt_sq (by norm_num)]

/-- **C113 fails** for shear stress transport: the factor of the production of specific dissipation is not blended.  The source is always that with the factor of the model near walls, which no blend with the other
model's factor gives unless the weight is one, and it never is (`sst_blend`). -/
theorem sst_gamma_blind (u : St d) (g : Gr d) (muf dist : ℝ) : ∃ F, 0 ≤ F ∧ F < 1 ∧
    (sstSource 0 u g muf dist).2 =
      5 / 10 * gamma1 * u.rho * (∑ i, ∑ j, (veloGrad u g i j + veloGrad u g j i - (∑ l, (veloGrad u g l l + veloGrad u g l l)) / 3 * (if i = j then 1 else 0)) * (veloGrad u g i j + veloGrad u g j i))
        - (75 / 1000 * F + 828 / 10000 * (1 - F)) * u.rho * max (u.e / u.rho) vs4 ^ 2
        + 2 * (1 - F) * u.rho * (856 / 1000) / max (u.e / u.rho) vs4 * crossDiff u g ∧
    gamma1 ≠ gamma1 * F + gamma2 * (1 - F) := by
  obtain ⟨-, h0, h1⟩ := sst_blend (rho := u.rho) (k := max (u.k / u.rho) vs4) (om := max (u.e / u.rho) vs4) (nu := muf / u.rho) (dist := dist) (crossDiff u g)
  refine ⟨sstF1 u.rho (max (u.k / u.rho) vs4) (max (u.e / u.rho) vs4) (muf / u.rho) dist (crossDiff u g), h0, h1, ?_, ?_⟩
  · unfold sstSource
    simp only [if_true]
    set F := sstF1 u.rho (max (u.k / u.rho) vs4) (max (u.e / u.rho) vs4) (muf / u.rho) dist (crossDiff u g)
    rw [show gamma1 * F + gamma1 * (1 - F) = gamma1 by ring]
  · intro h
    have hg : gamma2 < gamma1 := by unfold gamma1 gamma2; rw [sqrt_009]; norm_num
    nlinarith

theorem primGrad_boost (u : St d) (g : Gr d) (w : Fin d → ℝ) (q : ℝ) (gq : Fin d → ℝ) : primGrad (u.boost w) (g.boost w) q gq = primGrad u g q gq := rfl

/-- **C113** (gradients)  The cross term is the product of the gradients of turbulent energy and specific dissipation per mass: for conserved gradients that follow from them by the product rule. -/
theorem crossDiff_spec {u : St d} {g : Gr d} {k om : ℝ} {gk gom : Fin d → ℝ} (hr : u.rho ≠ 0) (hk : u.k = u.rho * k) (ho : u.e = u.rho * om)
    (hgk : ∀ i, g.k i = u.rho * gk i + k * g.rho i) (hgo : ∀ i, g.e i = u.rho * gom i + om * g.rho i) : crossDiff u g = ∑ i, gk i * gom i := by
  unfold crossDiff primGrad
  refine Finset.sum_congr rfl fun i _ => ?_
  rw [hk, ho, hgk i, hgo i]
  field_simp
  ring

/-- **C113** (frames)  The sources of both models are the same in every frame that moves with constant velocity. -/
theorem komega_source_boost {u : St d} (hr : u.rho ≠ 0) (g : Gr d) (w : Fin d → ℝ) (muf dist : ℝ) (mode : Int) :
    wilcoxSource mode (u.boost w) (g.boost w) muf = wilcoxSource mode u g muf ∧ sstSource mode (u.boost w) (g.boost w) muf dist = sstSource mode u g muf dist := by
  obtain ⟨h1, h2⟩ := komega_boost hr g w muf dist
  have hc : crossDiff (u.boost w) (g.boost w) = crossDiff u g := rfl
  constructor
  · unfold wilcoxSource
    rw [h2, veloGrad_boost hr, hc]
    rfl
  · unfold sstSource
    rw [h1, veloGrad_boost hr, hc]
    rfl

theorem rawProduction_solenoidal (uk m : ℝ) {G : Fin d → Fin d → ℝ} (h : ∑ l, G l l = 0) : rawProduction uk m G = m * ((∑ i, ∑ j, strain G i j ^ 2) / 2) := by
  rw [← sum_strain h]
  unfold rawProduction
  have e : ∀ i j, ((if i = j then 1 else 0) * uk * (2 / 3) - m * strain G i j) * G i j = (if i = j then G i j else 0) * (uk * (2 / 3)) - m * (strain G i j * G i j) := by
    intro i j
    split_ifs <;> ring
  simp only [e, Finset.sum_sub_distrib, ← Finset.sum_mul, ← Finset.mul_sum, Finset.sum_ite_eq, Finset.mem_univ, if_true, h]
  ring

/-- **C113** (Wilcox, no divergence)  Where the flow has no divergence, turbulent energy is made at the rate of viscosity times half the squared strain, unless that is more than twenty times dissipation,
and specific dissipation falls at most by its decay law and rises with production. -/
theorem wilcox_solenoidal {u : St d} {g : Gr d} {muf : ℝ} (hr : 0 < u.rho) (hf : 0 < muf) (h : ∑ l, veloGrad u g l l = 0) :
    let k := max (u.k / u.rho) (vs4 ^ 2)
    let om := max (u.e / u.rho) vs4
    let P := wilcoxMut u g muf * ((∑ i, ∑ j, strain (veloGrad u g) i j ^ 2) / 2)
    (1 / 10 ^ 200 ≤ P → P ≤ 20 * (9 / 100 * u.rho * k * om) → (wilcoxSource 0 u g muf).1 = P - 9 / 100 * u.rho * k * om) ∧
      13 / 25 * (om / k) * P - 708 / 10000 * u.rho * om ^ 2 ≤ (wilcoxSource 0 u g muf).2 ∧ 0 ≤ 13 / 25 * (om / k) * P ∧
      (crossDiff u g ≤ 0 → (wilcoxSource 0 u g muf).2 ≤ 13 / 25 * (om / k) * P - 85 / 100 * (708 / 10000) * u.rho * om ^ 2) := by
  have hv := vs4_pos
  have hm := (wilcoxMut_bounds hr hf g).1
  intro k om P
  have hk : 0 < k := lt_max_of_lt_right (by positivity)
  have ho : 0 < om := lt_max_of_lt_right hv
  have hP : 0 ≤ P := mul_nonneg hm.le (div_nonneg (Finset.sum_nonneg fun i _ => Finset.sum_nonneg fun j _ => sq_nonneg _) (by norm_num))
  have hraw := rawProduction_solenoidal u.k (wilcoxMut u g muf) h
  obtain ⟨hb0, hb1⟩ := fBeta_bounds (veloGrad u g) om
  have hro : 0 < u.rho * om ^ 2 := by positivity
  refine ⟨fun h1 h2 => ?_, ?_, by positivity, fun hc => ?_⟩
  · unfold wilcoxSource
    simp only [if_true, hraw]
    change min (max P (1 / 10 ^ 200)) (9 / 100 * u.rho * k * om * 20) - 9 / 100 * u.rho * k * om = _
    rw [max_eq_left h1, min_eq_left (by linarith)]
  · unfold wilcoxSource
    simp only [if_true, hraw]
    change _ ≤ 13 / 25 * om / k * P - fBeta (veloGrad u g) om * (708 / 10000) * u.rho * om ^ 2 + (if crossDiff u g > 0 then 125 / 1000 else 0) / om * crossDiff u g
    have hs : 0 ≤ (if crossDiff u g > 0 then 125 / 1000 else 0) / om * crossDiff u g := by
      split_ifs with hc
      · positivity
      · simp
    have e : 13 / 25 * om / k * P = 13 / 25 * (om / k) * P := by ring
    rw [e]
    nlinarith
  · unfold wilcoxSource
    simp only [if_true, hraw]
    change 13 / 25 * om / k * P - fBeta (veloGrad u g) om * (708 / 10000) * u.rho * om ^ 2 + (if crossDiff u g > 0 then 125 / 1000 else 0) / om * crossDiff u g ≤ _
    rw [if_neg (not_lt.2 hc)]
    have e : 13 / 25 * om / k * P = 13 / 25 * (om / k) * P := by ring
    rw [e]
    have hz : (0 : ℝ) / om * crossDiff u g = 0 := by simp
    rw [hz]
    have hmul := mul_le_mul_of_nonneg_right hb0 hro.le
    linarith

/-- **C113** (rates, values)  The rates are those of the decay laws: `0.09` times the specific dissipation, and the derivative of its decay. -/
theorem komega_rate_values (u : St d) (g : Gr d) (muf dist : ℝ) :
    (wilcoxSource 1 u g muf).1 = 9 / 100 * max (u.e / u.rho) vs4 ∧ (sstSource 1 u g muf dist).1 = 9 / 100 * max (u.e / u.rho) vs4 ∧
      2 * (85 / 100 * (708 / 10000)) * max (u.e / u.rho) vs4 ≤ (wilcoxSource 1 u g muf).2 ∧ (wilcoxSource 1 u g muf).2 ≤ 2 * (708 / 10000) * max (u.e / u.rho) vs4 ∧
      2 * (75 / 1000) * max (u.e / u.rho) vs4 ≤ (sstSource 1 u g muf dist).2 ∧ (sstSource 1 u g muf dist).2 ≤ 2 * (828 / 10000) * max (u.e / u.rho) vs4 := by
  have hv := vs4_pos
  have ho : 0 < max (u.e / u.rho) vs4 := lt_max_of_lt_right hv
  obtain ⟨hb0, hb1⟩ := fBeta_bounds (veloGrad u g) (max (u.e / u.rho) vs4)
  obtain ⟨-, h0, h1⟩ := sst_blend (rho := u.rho) (k := max (u.k / u.rho) vs4) (om := max (u.e / u.rho) vs4) (nu := muf / u.rho) (dist := dist) (crossDiff u g)
  unfold wilcoxSource sstSource
  simp only [one_ne_zero, if_false, true_and]
  set F := sstF1 u.rho (max (u.k / u.rho) vs4) (max (u.e / u.rho) vs4) (muf / u.rho) dist (crossDiff u g)
  set om := max (u.e / u.rho) vs4
  refine ⟨?_, ?_, ?_, ?_⟩ <;> nlinarith

/-- **C113** (shear stress transport, values)  Without divergence and below the upper limit turbulent energy is made at the rate of viscosity times half the squared strain. -/
theorem sst_solenoidal {u : St d} {g : Gr d} {muf dist : ℝ} (h : ∑ l, veloGrad u g l l = 0)
    (hP : sstMut u g muf dist * ((∑ i, ∑ j, strain (veloGrad u g) i j ^ 2) / 2) ≤ 20 * (9 / 100 * u.rho * max (u.k / u.rho) vs4 * max (u.e / u.rho) vs4)) :
    (sstSource 0 u g muf dist).1 =
      sstMut u g muf dist * ((∑ i, ∑ j, strain (veloGrad u g) i j ^ 2) / 2) - 9 / 100 * u.rho * max (u.k / u.rho) vs4 * max (u.e / u.rho) vs4 := by
  unfold sstSource
  simp only [if_true, rawProduction_solenoidal u.k (sstMut u g muf dist) h]
  rw [min_eq_left (by linarith)]

/-- a shear flow that meets the hypotheses -/
example : ∑ l, veloGrad (d := 2) ⟨1, fun _ => 0, 1, 2⟩ ⟨fun _ => 0, fun i j => if i = 0 ∧ j = 1 then 1 else 0, fun _ => 0, fun _ => 0⟩ l l = 0 := by
  simp [veloGrad]

/-- a state that meets the hypotheses of `wilcox_energy` -/
example : -(9 / 100 * 1 * 1 * 2) < (wilcoxSource 0 ⟨1, fun _ => 0, 1, 2⟩ expanding 1).1 := by
  have h := (wilcox_energy (u := ⟨1, fun _ => 0, 1, 2⟩) (by norm_num) expanding 1).1
  have h1 : max ((1 : ℝ) / 1) (vs4 ^ 2) = 1 := by unfold vs4; rw [max_eq_left] <;> norm_num
  have h2 : max ((2 : ℝ) / 1) vs4 = 2 := by unfold vs4; rw [max_eq_left] <;> norm_num
  simp only [h1, h2] at h
  exact h

end DNDSR.Turb

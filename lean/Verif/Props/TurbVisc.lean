import Verif.Spec.TurbVisc
import Mathlib.Tactic.Ring
import Mathlib.Tactic.Linarith
import Mathlib.Tactic.NormNum
import Mathlib.Tactic.Positivity
import Mathlib.Tactic.FieldSimp
import Mathlib.Tactic.GCongr

/-! # C112: viscosity is positive and bounded -/

namespace DNDSR.Turb

open Finset

variable {d : Nat}

theorem vs4_pos : 0 < vs4 := by unfold vs4; positivity

/-! ### the gas -/

/-- **C112** (Sutherland)  With model 1 the viscosity of the gas is that of Sutherland's law. -/
theorem muEff_sutherland {g : Props} (h : g.muModel = 1) (hT : 0 < g.TRef) (rho : ℝ) {T : ℝ} (h0 : 0 ≤ T) :
    muEff g rho T = .ok (sutherland g.muGas g.TRef g.CSutherland T) := by
  unfold muEff sutherland
  rw [if_neg (by rw [h]; decide), if_pos h]
  have hx : 0 ≤ T / g.TRef := by positivity
  have : (T / g.TRef) ^ (3 / 2 : ℝ) = T / g.TRef * Real.sqrt (T / g.TRef) := by
    rw [Real.sqrt_eq_rpow, show (3 / 2 : ℝ) = 1 + 1 / 2 by norm_num, Real.rpow_add_of_nonneg hx (by norm_num) (by norm_num), Real.rpow_one]
  simp only [this]
  congr 1
  ring

/-- **C112** (gas)  For a gas with viscosity and a physical state, every model gives a positive viscosity. -/
theorem muEff_pos {g : Props} (hm : g.muModel = 0 ∨ g.muModel = 1 ∨ g.muModel = 2) (hg : 0 < g.muGas) (hT : 0 < g.TRef) (hC : 0 ≤ g.CSutherland)
    {rho T : ℝ} (hr : 0 < rho) (h0 : 0 < T) : ∃ m, muEff g rho T = .ok m ∧ 0 < m := by
  rcases hm with h | h | h
  · exact ⟨g.muGas, by unfold muEff; rw [if_pos h], hg⟩
  · refine ⟨_, muEff_sutherland h hT rho h0.le, ?_⟩
    unfold sutherland
    have := Real.rpow_pos_of_pos (div_pos h0 hT) (3 / 2)
    positivity
  · exact ⟨g.muGas * rho, by unfold muEff; rw [if_neg (by rw [h]; decide), if_neg (by rw [h]; decide), if_pos h], mul_pos hg hr⟩

/-- **C112** (gas)  A model with another number stops the program. -/
theorem muEff_unknown {g : Props} (hm : g.muModel ≠ 0 ∧ g.muModel ≠ 1 ∧ g.muModel ≠ 2) (rho T : ℝ) : muEff g rho T = .abort := by
  unfold muEff
  rw [if_neg hm.1, if_neg hm.2.1, if_neg hm.2.2]

/-- **C112** (gas)  At the reference temperature the viscosity is the given one. -/
theorem muEff_ref {g : Props} (h : g.muModel = 1) (hT : 0 < g.TRef) (hC : 0 ≤ g.CSutherland) (rho : ℝ) : muEff g rho g.TRef = .ok g.muGas := by
  rw [muEff_sutherland h hT rho hT.le]
  unfold sutherland
  rw [div_self hT.ne', Real.one_rpow, mul_one, mul_div_assoc, div_self (by positivity), mul_one]

/-- **C112** (gas)  Viscosity by Sutherland's law rises with the temperature. -/
theorem muEff_mono {g : Props} (h : g.muModel = 1) (hg : 0 < g.muGas) (hT : 0 < g.TRef) (hC : 0 ≤ g.CSutherland) (rho : ℝ) {T T' m m' : ℝ} (h0 : 0 < T) (hlt : T < T')
    (hm : muEff g rho T = .ok m) (hm' : muEff g rho T' = .ok m') : m < m' := by
  unfold muEff at hm hm'
  rw [if_neg (by rw [h]; decide), if_pos h] at hm hm'
  simp only [Res.ok.injEq] at hm hm'
  subst hm hm'
  have h0' : 0 < T' := h0.trans hlt
  set a := Real.sqrt (T / g.TRef)
  set b := Real.sqrt (T' / g.TRef)
  have ha : 0 < a := Real.sqrt_pos.2 (by positivity)
  have hab : a < b := Real.sqrt_lt_sqrt (by positivity) (by gcongr)
  have hTa : T / g.TRef = a ^ 2 := (Real.sq_sqrt (by positivity)).symm
  have hTb : T' / g.TRef = b ^ 2 := (Real.sq_sqrt (by positivity)).symm
  have eT : T = a ^ 2 * g.TRef := by rw [← hTa]; field_simp
  have eT' : T' = b ^ 2 * g.TRef := by rw [← hTb]; field_simp
  rw [hTa, hTb, div_lt_div_iff₀ (by positivity) (by positivity), eT, eT']
  have hb : 0 < b := ha.trans hab
  have h1 : a ^ 3 * b ^ 2 < b ^ 3 * a ^ 2 := by
    have : a ^ 2 * b ^ 2 * a < a ^ 2 * b ^ 2 * b := by gcongr
    nlinarith [this]
  have h2 : a ^ 3 ≤ b ^ 3 := by gcongr
  have h3 : a ^ 3 * (b ^ 2 * g.TRef + g.CSutherland) < b ^ 3 * (a ^ 2 * g.TRef + g.CSutherland) := by
    have e1 : a ^ 3 * b ^ 2 * g.TRef < b ^ 3 * a ^ 2 * g.TRef := by gcongr
    have e2 : a ^ 3 * g.CSutherland ≤ b ^ 3 * g.CSutherland := by gcongr
    nlinarith [e1, e2]
  have h4 : 0 < g.muGas * (g.TRef + g.CSutherland) := by positivity
  have := mul_lt_mul_of_pos_left h3 h4
  nlinarith [this]

/-! ### Spalart-Allmaras -/

/-- **C112** (Spalart-Allmaras)  Turbulent viscosity is positive whatever the turbulent variable is, even if it is negative, and at most what the variable says, up to a
small share of the viscosity of the gas. -/
theorem saMut_bounds {nut muRef muf : ℝ} (hf : 0 < muf) : 0 < saMut nut muRef muf ∧ saMut nut muRef muf ≤ max (nut * muRef) 0 + 5 / 100 * Real.log 2 * muf := by
  unfold saMut
  simp only
  set x := nut * muRef / muf with hx
  have hxe : nut * muRef = x * muf := by rw [hx]; field_simp
  set c := if x < 10 then 5 / 100 * Real.log (1 + Real.exp (20 * x)) else x with hc
  have hlog2 : 0 < Real.log 2 := Real.log_pos (by norm_num)
  have hcp : 0 < c := by
    rw [hc]
    split
    · have : 0 < Real.log (1 + Real.exp (20 * x)) := Real.log_pos (by linarith [Real.exp_pos (20 * x)])
      positivity
    · linarith
  have hcb : c ≤ max x 0 + 5 / 100 * Real.log 2 := by
    rw [hc]
    split
    · have h1 : Real.log (1 + Real.exp (20 * x)) ≤ Real.log (2 * Real.exp (20 * max x 0)) := by
        apply Real.log_le_log (by positivity)
        have a1 : Real.exp (20 * x) ≤ Real.exp (20 * max x 0) := Real.exp_le_exp.2 (by linarith [le_max_left x 0])
        have a2 : 1 ≤ Real.exp (20 * max x 0) := Real.one_le_exp (by linarith [le_max_right x 0])
        linarith
      rw [Real.log_mul (by norm_num) (Real.exp_ne_zero _), Real.log_exp] at h1
      linarith
    · linarith [le_max_left x 0]
  have hfn : 0 < c ^ 3 / (c ^ 3 + (71 / 10) ^ 3) := by positivity
  have hfn1 : c ^ 3 / (c ^ 3 + (71 / 10) ^ 3) ≤ 1 := by
    rw [div_le_one (by positivity)]
    have : (0 : ℝ) < (71 / 10) ^ 3 := by positivity
    linarith
  have hm : max (c * (c ^ 3 / (c ^ 3 + (71 / 10) ^ 3))) 0 = c * (c ^ 3 / (c ^ 3 + (71 / 10) ^ 3)) := max_eq_left (by positivity)
  rw [hm]
  refine ⟨by positivity, ?_⟩
  have h2 : c * (c ^ 3 / (c ^ 3 + (71 / 10) ^ 3)) ≤ c := by nlinarith
  have h3 : max (nut * muRef) 0 = muf * max x 0 := by
    rw [hxe, mul_max_of_nonneg _ _ hf.le, mul_zero, mul_comm]
  rw [h3]
  have := mul_le_mul_of_nonneg_left (h2.trans hcb) hf.le
  linarith

/-! ### two equations -/

theorem shear_ge (G : Fin d → Fin d → ℝ) : vs4 ≤ shear G := by
  unfold shear
  linarith [Real.sqrt_nonneg ((∑ i, ∑ j, strain G i j ^ 2) / 2)]

/-- **C112** (k-epsilon)  For a physical state turbulent viscosity is positive, at most `1e5` times that of the gas, and such that the shear stress is at most two thirds of the density times the turbulent energy. -/
theorem keMut_bounds {u : St d} {muf : ℝ} (hr : 0 < u.rho) (hk : 0 ≤ u.k) (he : 0 ≤ u.e) (hf : 0 < muf) (g : Gr d) :
    0 < keMut u g muf ∧ keMut u g muf ≤ 10 ^ 5 * muf ∧
      keMut u g muf * Real.sqrt ((∑ i, ∑ j, strain (veloGrad u g) i j ^ 2) / 2) ≤ 2 / 3 * (u.k + u.rho * vs4) := by
  have hv := vs4_pos
  have hk1 : 0 < u.k / u.rho + vs4 := by positivity
  have he1 : 0 < u.e / u.rho + vs4 := by positivity
  have hS := shear_ge (veloGrad u g)
  have hS0 : 0 < shear (veloGrad u g) := hv.trans_le hS
  unfold keMut
  simp only
  set k := u.k / u.rho + vs4 with hkd
  set e := u.e / u.rho + vs4
  set R := u.rho * k ^ 2 / (muf * e) + 1 / 10 ^ 10
  have hR : 0 < R := by positivity
  have h1 : 0 < 1 - Real.exp (-(1 / 100) * R) := by
    have : Real.exp (-(1 / 100) * R) < 1 := Real.exp_lt_one_iff.2 (by linarith)
    linarith
  have h2 : 0 < 1 - Real.exp (-Real.sqrt R) := by
    have : Real.exp (-Real.sqrt R) < 1 := Real.exp_lt_one_iff.2 (by linarith [Real.sqrt_pos.2 hR])
    linarith
  have h3 : (0 : ℝ) < max 1 (Real.sqrt (2 / R)) := lt_max_of_lt_left one_pos
  refine ⟨lt_min (lt_min (by positivity) (by positivity)) (by positivity), min_le_right _ _, ?_⟩
  set m : ℝ := min (min _ _) _
  have hm : m ≤ 2 / 3 * u.rho * k / shear (veloGrad u g) := (min_le_left _ _).trans (min_le_right _ _)
  have hrk : u.rho * k = u.k + u.rho * vs4 := by rw [hkd]; field_simp
  have hsq : Real.sqrt ((∑ i, ∑ j, strain (veloGrad u g) i j ^ 2) / 2) ≤ shear (veloGrad u g) := by unfold shear; linarith
  calc m * Real.sqrt ((∑ i, ∑ j, strain (veloGrad u g) i j ^ 2) / 2)
      ≤ 2 / 3 * u.rho * k / shear (veloGrad u g) * Real.sqrt ((∑ i, ∑ j, strain (veloGrad u g) i j ^ 2) / 2) :=
        mul_le_mul_of_nonneg_right hm (Real.sqrt_nonneg _)
    _ ≤ 2 / 3 * u.rho * k / shear (veloGrad u g) * shear (veloGrad u g) := mul_le_mul_of_nonneg_left hsq (by positivity)
    _ = 2 / 3 * (u.k + u.rho * vs4) := by rw [div_mul_cancel₀ _ hS0.ne', mul_assoc, hrk]

theorem veloGrad_boost {u : St d} (hr : u.rho ≠ 0) (g : Gr d) (w : Fin d → ℝ) : veloGrad (u.boost w) (g.boost w) = veloGrad u g := by
  funext i j
  unfold veloGrad St.boost Gr.boost
  simp only
  field_simp
  ring

/-- **C112** (k-epsilon)  Turbulent viscosity and the sources are the same in every frame that moves with constant velocity. -/
theorem ke_boost {u : St d} (hr : u.rho ≠ 0) (g : Gr d) (w : Fin d → ℝ) (muf : ℝ) (mode : Int) :
    keMut (u.boost w) (g.boost w) muf = keMut u g muf ∧ keSource mode (u.boost w) (g.boost w) muf = keSource mode u g muf := by
  constructor
  · unfold keMut
    rw [veloGrad_boost hr]
    rfl
  · unfold keSource
    rw [veloGrad_boost hr]
    rfl

/-- **C112** (k-epsilon)  The fluxes of the turbulent quantities are down the gradient, with a coefficient that is at least the viscosity of the gas. -/
theorem keFlux_down (gk ge n : Fin d → ℝ) {muT muPhy : ℝ} (hm : 0 ≤ muT) : ∃ a b, muPhy ≤ a ∧ muPhy ≤ b ∧
    keFlux gk ge n muT muPhy = (a * ∑ i, gk i * n i, b * ∑ i, ge i * n i) := by
  refine ⟨muPhy + muT / 1, muPhy + muT / (13 / 10), ?_, ?_, ?_⟩
  · linarith [show muT / 1 = muT by ring]
  · have : 0 ≤ muT / (13 / 10) := by positivity
    linarith
  · unfold keFlux
    rw [mul_comm, mul_comm (∑ i, ge i * n i)]

theorem veloGrad_none (u : St d) : veloGrad u Gr.none = fun _ _ => 0 := by
  funext i j
  simp [veloGrad, Gr.none]

/-- **C112, partial** (decay)  Where nothing changes in space, turbulent energy decays at the rate of dissipation, and dissipation decays too.  Missing: the rate at which dissipation decays,
which is that of the time scale of turbulence (`timescale_blind`). -/
theorem decay_partial {u : St d} {muf : ℝ} (hr : 0 < u.rho) (he : 0 < u.e) (hf : 0 < muf) :
    (keSource 0 u Gr.none muf).1 = -u.e ∧ (keSource 0 u Gr.none muf).2 < 0 := by
  have hv := vs4_pos
  unfold keSource
  rw [veloGrad_none]
  simp only [if_true, mul_zero, Finset.sum_const_zero, neg_zero, Gr.none, sub_self, zero_div, zero_mul, max_self]
  set k := max (u.k / u.rho) vs4
  have hk0 : 0 < k := lt_max_of_lt_right hv
  set R := u.rho * k ^ 2 / (muf * k) + vs4
  have hR : 0 < R := by positivity
  have h1 : 0 < 1 - Real.exp (-(1 / 100) * R) := by
    have : Real.exp (-(1 / 100) * R) < 1 := Real.exp_lt_one_iff.2 (by linarith)
    linarith
  have h2 : 0 < max (1 - Real.exp (-Real.sqrt R)) vs4 := lt_max_of_lt_right hv
  have h3 : (0 : ℝ) < max 1 (Real.sqrt (2 / R)) := lt_max_of_lt_left one_pos
  have hS0 : 0 < shear (fun _ _ => 0 : Fin d → Fin d → ℝ) := hv.trans_le (shear_ge _)
  set m := min (9 / 100 * _ * u.rho * k ^ 2 / k) (2 / 3 * u.rho * k / shear (fun _ _ => 0 : Fin d → Fin d → ℝ)) with hm
  have hm0 : 0 < m := lt_min (by positivity) (by positivity)
  have hmin : min 0 (1065 / 1000 * (9 / 100) * u.k ^ 2 / m) = 0 := min_eq_left (by positivity)
  rw [hmin]
  refine ⟨by ring, ?_⟩
  have hz : 0 < max 1 (1 / Real.sqrt (R / 2)) := lt_max_of_lt_left one_pos
  apply div_neg_of_neg_of_pos
  · simp only [mul_zero, add_zero]
    linarith
  · positivity

theorem sum_strain {G : Fin d → Fin d → ℝ} (h : ∑ l, G l l = 0) : ∑ i, ∑ j, strain G i j * G i j = (∑ i, ∑ j, strain G i j ^ 2) / 2 := by
  have hs : ∀ i j, strain G i j = G i j + G j i := fun i j => by unfold strain; rw [h]; ring
  simp only [hs]
  have e : ∑ i, ∑ j, (G i j + G j i) * G i j = ∑ i, ∑ j, (G i j + G j i) * G j i := by
    rw [Finset.sum_comm]
    refine Finset.sum_congr rfl fun i _ => Finset.sum_congr rfl fun j _ => ?_
    ring
  have e2 : ∑ i, ∑ j, (G i j + G j i) ^ 2 = ∑ i, ∑ j, (G i j + G j i) * G i j + ∑ i, ∑ j, (G i j + G j i) * G j i := by
    rw [← Finset.sum_add_distrib]
    refine Finset.sum_congr rfl fun i _ => ?_
    rw [← Finset.sum_add_distrib]
    refine Finset.sum_congr rfl fun j _ => ?_
    ring
  rw [e2, ← e]
  ring

/-- **C112** (production)  In a flow that keeps volumes, shear feeds turbulence: turbulent energy never falls faster than by dissipation, and if there is shear and turbulence it falls slower. -/
theorem production {u : St d} {g : Gr d} {muf : ℝ} (hr : 0 < u.rho) (hf : 0 < muf) (h : ∑ l, veloGrad u g l l = 0) :
    -u.e ≤ (keSource 0 u g muf).1 ∧ (u.k ≠ 0 → (∃ i j, strain (veloGrad u g) i j ≠ 0) → -u.e < (keSource 0 u g muf).1) := by
  have hv := vs4_pos
  unfold keSource
  simp only [if_true]
  set G := veloGrad u g
  set k := max (u.k / u.rho) vs4
  have hk0 : 0 < k := lt_max_of_lt_right hv
  set R := u.rho * k ^ 2 / (muf * k) + vs4
  have hR : 0 < R := by positivity
  have h1 : 0 < 1 - Real.exp (-(1 / 100) * R) := by
    have : Real.exp (-(1 / 100) * R) < 1 := Real.exp_lt_one_iff.2 (by linarith)
    linarith
  have h2 : 0 < max (1 - Real.exp (-Real.sqrt R)) vs4 := lt_max_of_lt_right hv
  have h3 : (0 : ℝ) < max 1 (Real.sqrt (2 / R)) := lt_max_of_lt_left one_pos
  have hS0 : 0 < shear G := hv.trans_le (shear_ge _)
  set m : ℝ := min (9 / 100 * _ * u.rho * k ^ 2 / k) (2 / 3 * u.rho * k / shear G) with hm
  have hm0 : 0 < m := lt_min (by positivity) (by positivity)
  have hP : -∑ i, ∑ j, ((if i = j then 1 else 0) * u.k * (2 / 3) - m * strain G i j) * G i j = m * ((∑ i, ∑ j, strain G i j ^ 2) / 2) := by
    rw [← sum_strain h, Finset.mul_sum]
    have : ∀ i, ∑ j, ((if i = j then 1 else 0) * u.k * (2 / 3) - m * strain G i j) * G i j = u.k * (2 / 3) * G i i - m * ∑ j, strain G i j * G i j := by
      intro i
      rw [Finset.mul_sum]
      have e1 : ∀ j, ((if i = j then 1 else 0) * u.k * (2 / 3) - m * strain G i j) * G i j = (if i = j then u.k * (2 / 3) * G i j else 0) - m * (strain G i j * G i j) := by
        intro j; split <;> ring
      simp only [e1]
      rw [Finset.sum_sub_distrib, Finset.sum_ite_eq]
      simp
    simp only [this]
    rw [Finset.sum_sub_distrib, ← Finset.mul_sum, h]
    ring
  rw [hP]
  have hq : 0 ≤ ∑ i, ∑ j, strain G i j ^ 2 := Finset.sum_nonneg fun i _ => Finset.sum_nonneg fun j _ => sq_nonneg _
  constructor
  · have : 0 ≤ min (m * ((∑ i, ∑ j, strain G i j ^ 2) / 2)) (1065 / 1000 * (9 / 100) * u.k ^ 2 / m) := le_min (by positivity) (by positivity)
    linarith
  · rintro hk ⟨i, j, hij⟩
    have hq' : 0 < ∑ i, ∑ j, strain G i j ^ 2 := by
      refine Finset.sum_pos' (fun i _ => Finset.sum_nonneg fun j _ => sq_nonneg _) ⟨i, Finset.mem_univ _, ?_⟩
      exact Finset.sum_pos' (fun j _ => sq_nonneg _) ⟨j, Finset.mem_univ _, by positivity⟩
    have : 0 < min (m * ((∑ i, ∑ j, strain G i j ^ 2) / 2)) (1065 / 1000 * (9 / 100) * u.k ^ 2 / m) := lt_min (by positivity) (by positivity)
    linarith

/-- **C112 fails** for the sources: the time scale of turbulence, the quotient of turbulent energy and dissipation, is taken from turbulent energy alone.  What stands for the derivative of the source of dissipation is
the same for all values of dissipation, and where nothing changes in space the source of dissipation is proportional to dissipation, not to its square. -/
theorem timescale_blind (u : St d) (g : Gr d) (muf e' : ℝ) : keSource 1 { u with e := e' } g muf = keSource 1 u g muf ∧
    ∀ c, (keSource 0 { u with e := c * u.e } Gr.none muf).2 - (keSource 0 { u with e := 0 } Gr.none muf).2 =
      c * ((keSource 0 u Gr.none muf).2 - (keSource 0 { u with e := 0 } Gr.none muf).2) := by
  constructor
  · rfl
  · intro c
    have hv : ∀ x, veloGrad { u with e := x } Gr.none = fun _ _ => 0 := fun x => veloGrad_none _
    unfold keSource
    simp only [hv]
    simp only [if_true, mul_zero, Finset.sum_const_zero, neg_zero, Gr.none, sub_self, zero_div, zero_mul, max_self, add_zero]
    ring

/-- the hypotheses hold for turbulence in a shear flow -/
example : let u : St 2 := ⟨1, fun _ => 1, 1 / 10, 1 / 100⟩
    let g : Gr 2 := ⟨fun _ => 0, fun i j => if i = 1 ∧ j = 0 then 5 else 0, fun _ => 0, fun _ => 0⟩
    0 < keMut u g (1 / 1000) ∧ keMut u g (1 / 1000) ≤ 100 := by
  intro u g
  obtain ⟨h1, h2, -⟩ := keMut_bounds (u := u) (muf := 1 / 1000) (by norm_num [u]) (by norm_num [u]) (by norm_num [u]) (by norm_num) g
  exact ⟨h1, h2.trans (by norm_num)⟩

/-- this flow keeps volumes and has shear -/
example : let u : St 2 := ⟨1, fun _ => 1, 1 / 10, 1 / 100⟩
    let g : Gr 2 := ⟨fun _ => 0, fun i j => if i = 1 ∧ j = 0 then 5 else 0, fun _ => 0, fun _ => 0⟩
    (keSource 0 u g (1 / 1000)).1 > -(1 / 100) := by
  intro u g
  have hG : ∀ i j, veloGrad u g i j = if i = 1 ∧ j = 0 then 5 else 0 := fun i j => by simp [veloGrad, u, g]
  have h := production (u := u) (g := g) (muf := 1 / 1000) (by norm_num [u]) (by norm_num) (by simp [hG])
  exact h.2 (by norm_num [u]) ⟨1, 0, by simp [strain, hG]⟩

/-- and for air at room temperature -/
example : ∃ m, muEff ⟨1, 18 / 1000000, 273, 110⟩ (12 / 10) 293 = .ok m ∧ 18 / 1000000 < m := by
  have h1 := muEff_ref (g := ⟨1, 18 / 1000000, 273, 110⟩) rfl (by norm_num) (by norm_num) (12 / 10)
  obtain ⟨m, hm, -⟩ := muEff_pos (g := ⟨1, 18 / 1000000, 273, 110⟩) (Or.inr (Or.inl rfl)) (by norm_num) (by norm_num) (by norm_num) (rho := 12 / 10) (T := 293) (by norm_num) (by norm_num)
  exact ⟨m, hm, muEff_mono (T := 273) (T' := 293) rfl (by norm_num) (by norm_num) (by norm_num) (12 / 10) (by norm_num) (by norm_num) h1 hm⟩

end DNDSR.Turb

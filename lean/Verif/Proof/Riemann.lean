import Verif.Props.GasDeriv
import Mathlib.Tactic.Positivity
import Mathlib.Tactic.Linarith
import Mathlib.Tactic.Module
import Mathlib.Algebra.Order.BigOperators.Ring.Finset

/-!
# Facts about the states used by the Riemann solvers
-/

namespace DNDSR.Gas

open Finset

variable {d : Nat} {gamma : ℝ}

theorem side_velo (U : St ℝ d) : (side gamma U).velo = fun i => U.2.1 i / U.1 := by
  funext i
  simp only [side, St.c0, St.cv, Pi.smul_apply, smul_eq_mul]
  rw [mul_comm, div_eq_mul_inv]

theorem side_p {U : St ℝ d} (hr : U.1 ≠ 0) : (side gamma U).p = (primOf gamma U).2.2 := by
  simp only [side, thermal, St.c0, St.cv, St.c4, dot_smul_self, primOf]
  congr 1
  simp only [dotProduct]
  field_simp

theorem side_asqr {U : St ℝ d} : (side gamma U).asqr = gamma * (side gamma U).p / U.1 := rfl
theorem side_H {U : St ℝ d} : (side gamma U).H = (U.2.2 + (side gamma U).p) / U.1 := rfl

theorem side_mom {U : St ℝ d} (hr : U.1 ≠ 0) : U.2.1 = U.1 • (side gamma U).velo := by
  rw [side_velo]
  funext i
  simp only [Pi.smul_apply, smul_eq_mul]
  field_simp

theorem side_ene {U : St ℝ d} : U.2.2 * (gamma - 1) =
    (side gamma U).p + (gamma - 1) * (U.1 * ((side gamma U).velo ⬝ᵥ (side gamma U).velo) / 2) := by
  have : (side gamma U).p = (gamma - 1) * (U.2.2 - U.1 * (1 / 2) * ((side gamma U).velo ⬝ᵥ (side gamma U).velo)) := rfl
  rw [this]
  ring

/-- the enthalpy minus the kinetic energy is `γ / (γ - 1) p / ρ` -/
theorem side_H_gas {U : St ℝ d} (hr : U.1 ≠ 0) (hg : 1 < gamma) :
    (gamma - 1) * ((side gamma U).H - 1 / 2 * ((side gamma U).velo ⬝ᵥ (side gamma U).velo)) = (side gamma U).asqr := by
  have h := side_ene (gamma := gamma) (U := U)
  rw [side_asqr, side_H]
  field_simp
  linear_combination 2 * h

theorem side_asqr_pos {U : St ℝ d} (hU : Physical gamma U) (hg : 1 < gamma) : 0 < (side gamma U).asqr := by
  rw [side_asqr, side_p hU.rho.ne']
  have := hU.p
  have := hU.rho
  positivity

theorem sqrt_add_ne {UL UR : St ℝ d} (hL : 0 < UL.1) (hR : 0 < UR.1) : √UL.c0 + √UR.c0 ≠ 0 := by
  have h1 : 0 < √UL.c0 := Real.sqrt_pos.mpr hL
  have h2 : 0 < √UR.c0 := Real.sqrt_pos.mpr hR
  exact (add_pos h1 h2).ne'

/-- the squared speed of a weighted average is at most the weighted average of the squared speeds -/
theorem avg_sq_le (x y : Fin d → ℝ) {s t : ℝ} (hs : 0 < s) (ht : 0 < t) :
    ((s + t)⁻¹ • (s • x + t • y)) ⬝ᵥ ((s + t)⁻¹ • (s • x + t • y)) ≤ (s * (x ⬝ᵥ x) + t * (y ⬝ᵥ y)) / (s + t) := by
  have hst : 0 < s + t := add_pos hs ht
  have h : (s * (x ⬝ᵥ x) + t * (y ⬝ᵥ y)) / (s + t) - ((s + t)⁻¹ • (s • x + t • y)) ⬝ᵥ ((s + t)⁻¹ • (s • x + t • y)) =
      s * t / ((s + t) * (s + t)) * ((x - y) ⬝ᵥ (x - y)) := by
    rw [dot_smul_self]
    simp only [add_dotProduct, dotProduct_add, smul_dotProduct, dotProduct_smul, sub_dotProduct, dotProduct_sub, smul_eq_mul,
      dotProduct_comm y x]
    field_simp
    ring
  have hn : 0 ≤ (x - y) ⬝ᵥ (x - y) := by
    simp only [dotProduct]
    exact sum_nonneg fun i _ => mul_self_nonneg _
  have : 0 ≤ s * t / ((s + t) * (s + t)) * ((x - y) ⬝ᵥ (x - y)) := mul_nonneg (by positivity) hn
  linarith

/-- the Roe average of physical states has a positive squared sound speed -/
theorem roe_asqr_pos {UL UR : St ℝ d} (hg : 1 < gamma) (hL : Physical gamma UL) (hR : Physical gamma UR) :
    0 < (roeAverage gamma UL UR).asqr := by
  have h1 : 0 < √UL.c0 := Real.sqrt_pos.mpr hL.rho
  have h2 : 0 < √UR.c0 := Real.sqrt_pos.mpr hR.rho
  have hv := avg_sq_le (side gamma UL).velo (side gamma UR).velo h1 h2
  have eL := side_H_gas hL.rho.ne' hg
  have eR := side_H_gas hR.rho.ne' hg
  have pL := side_asqr_pos hL hg
  have pR := side_asqr_pos hR hg
  have hg' : 0 < gamma - 1 := by linarith
  show 0 < (gamma - 1) * ((√UL.c0 * (side gamma UL).H + √UR.c0 * (side gamma UR).H) / (√UL.c0 + √UR.c0) - 1 / 2 *
    (((√UL.c0 + √UR.c0)⁻¹ • (√UL.c0 • (side gamma UL).velo + √UR.c0 • (side gamma UR).velo)) ⬝ᵥ
      ((√UL.c0 + √UR.c0)⁻¹ • (√UL.c0 • (side gamma UL).velo + √UR.c0 • (side gamma UR).velo))))
  refine mul_pos hg' ?_
  have hHL : 0 < (side gamma UL).H - 1 / 2 * ((side gamma UL).velo ⬝ᵥ (side gamma UL).velo) := by
    by_contra hn
    have := mul_nonpos_of_nonneg_of_nonpos hg'.le (not_lt.mp hn)
    linarith
  have hHR : 0 < (side gamma UR).H - 1 / 2 * ((side gamma UR).velo ⬝ᵥ (side gamma UR).velo) := by
    by_contra hn
    have := mul_nonpos_of_nonneg_of_nonpos hg'.le (not_lt.mp hn)
    linarith
  have hlt : 1 / 2 * ((√UL.c0 * ((side gamma UL).velo ⬝ᵥ (side gamma UL).velo) +
      √UR.c0 * ((side gamma UR).velo ⬝ᵥ (side gamma UR).velo)) / (√UL.c0 + √UR.c0)) <
      (√UL.c0 * (side gamma UL).H + √UR.c0 * (side gamma UR).H) / (√UL.c0 + √UR.c0) := by
    rw [← mul_div_assoc]
    refine div_lt_div_of_pos_right ?_ (add_pos h1 h2)
    have a1 := mul_pos h1 hHL
    have a2 := mul_pos h2 hHR
    linarith
  linarith

/-- the Roe average of a state with itself is that state -/
theorem roeAverage_self {U : St ℝ d} (hg : 1 < gamma) (hr : 0 < U.1) :
    roeAverage gamma U U = ⟨(side gamma U).velo, (side gamma U).velo ⬝ᵥ (side gamma U).velo, (side gamma U).H, (side gamma U).asqr, U.1⟩ := by
  have hs : 0 < √U.c0 := Real.sqrt_pos.mpr hr
  have hv : ((√U.c0 + √U.c0)⁻¹ • (√U.c0 • (side gamma U).velo + √U.c0 • (side gamma U).velo) : Fin d → ℝ) = (side gamma U).velo := by
    rw [← add_smul, smul_smul, inv_mul_cancel₀ (by positivity), one_smul]
  have hH : (√U.c0 * (side gamma U).H + √U.c0 * (side gamma U).H) / (√U.c0 + √U.c0) = (side gamma U).H := by
    field_simp
  simp only [roeAverage, hv, hH, side_H_gas hr.ne' hg, Avg.mk.injEq, true_and]
  exact Real.mul_self_sqrt (le_of_lt hr)

theorem waves_zero (A : Avg d) (a vN : ℝ) (n : Fin d → ℝ) : waves gamma A a vN n 0 = ⟨0, 0, 0, 0⟩ := by
  simp [waves, St.c0, St.cv, St.c4]

theorem waveSum_zero (A : Avg d) (a vN : ℝ) (n : Fin d → ℝ) (l : Lam) : waveSum A a vN n l ⟨0, 0, 0, 0⟩ = 0 := by
  simp [waveSum]

end DNDSR.Gas

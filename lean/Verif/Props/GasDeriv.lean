import Verif.Props.Gas
import Mathlib.Analysis.Calculus.Deriv.Mul
import Mathlib.Analysis.Calculus.Deriv.Inv
import Mathlib.Analysis.Calculus.Deriv.Add
import Mathlib.Analysis.Calculus.Deriv.Comp
import Mathlib.Analysis.Calculus.Deriv.Prod
import Mathlib.Algebra.BigOperators.Field

/-!
# Derivatives of the flux and of the primitive variables (C42, C44)
-/

namespace DNDSR.Gas

open Finset

variable {d m : Nat}

/-- a derivative of a curve of states, component by component -/
theorem St.hasDeriv {c : ℝ → St ℝ d} {c' : St ℝ d} {t : ℝ} (h : HasDerivAt c c' t) :
    HasDerivAt (fun s => (c s).1) c'.1 t ∧ (∀ i, HasDerivAt (fun s => (c s).2.1 i) (c'.2.1 i) t) ∧
      HasDerivAt (fun s => (c s).2.2) c'.2.2 t := by
  have h2 := (ContinuousLinearMap.snd ℝ ℝ ((Fin d → ℝ) × ℝ)).hasFDerivAt.comp_hasDerivAt t h
  refine ⟨(ContinuousLinearMap.fst ℝ ℝ ((Fin d → ℝ) × ℝ)).hasFDerivAt.comp_hasDerivAt t h, ?_, ?_⟩
  · exact hasDerivAt_pi.mp ((ContinuousLinearMap.fst ℝ (Fin d → ℝ) ℝ).hasFDerivAt.comp_hasDerivAt t h2)
  · exact (ContinuousLinearMap.snd ℝ (Fin d → ℝ) ℝ).hasFDerivAt.comp_hasDerivAt t h2

/-- the velocity changes at the rate both `IdealGasUIncrement` and `GradientCons2Prim_IdealGas` compute -/
theorem velo_deriv {c : ℝ → St ℝ d} {c' : St ℝ d} {t : ℝ} (h : HasDerivAt c c' t) (hr : (c t).1 ≠ 0) (i : Fin d) :
    HasDerivAt (fun s => (c s).2.1 i / (c s).1) ((c'.2.1 i - (c t).2.1 i / (c t).1 * c'.1) / (c t).1) t := by
  obtain ⟨h0, hv, -⟩ := St.hasDeriv h
  refine ((hv i).fun_div h0 hr).congr_deriv ?_
  field_simp

theorem pressure_deriv (gamma : ℝ) {c : ℝ → St ℝ d} {c' : St ℝ d} {t : ℝ} (h : HasDerivAt c c' t) (hr : (c t).1 ≠ 0) :
    HasDerivAt (fun s => (gamma - 1) * ((c s).2.2 - (∑ i, (c s).2.1 i * (c s).2.1 i) / (2 * (c s).1)))
      ((gamma - 1) * (c'.2.2 - 1 / 2 * ((∑ i, c'.2.1 i * ((c t).2.1 i / (c t).1)) +
        ∑ i, (c t).2.1 i * ((c'.2.1 i - (c t).2.1 i / (c t).1 * c'.1) / (c t).1)))) t := by
  obtain ⟨h0, hv, h4⟩ := St.hasDeriv h
  have hs := HasDerivAt.fun_sum (u := univ) fun i _ => (hv i).fun_mul (hv i)
  have hq := hs.fun_div (h0.const_mul 2) (mul_ne_zero two_ne_zero hr)
  refine ((h4.fun_sub hq).const_mul (gamma - 1)).congr_deriv ?_
  congr 1
  have e1 : ∑ i, (c'.2.1 i * (c t).2.1 i + (c t).2.1 i * c'.2.1 i) = 2 * ∑ i, c'.2.1 i * (c t).2.1 i := by
    rw [mul_sum]
    exact sum_congr rfl fun i _ => by ring
  have e2 : ∑ i, c'.2.1 i * ((c t).2.1 i / (c t).1) = (∑ i, c'.2.1 i * (c t).2.1 i) / (c t).1 := by
    rw [sum_div]
    exact sum_congr rfl fun i _ => by ring
  have e3 : ∑ i, (c t).2.1 i * ((c'.2.1 i - (c t).2.1 i / (c t).1 * c'.1) / (c t).1) =
      (∑ i, c'.2.1 i * (c t).2.1 i) / (c t).1 - (∑ i, (c t).2.1 i * (c t).2.1 i) * (c'.1 / ((c t).1 * (c t).1)) := by
    rw [sum_div, sum_mul, ← sum_sub_distrib]
    exact sum_congr rfl fun i _ => by field_simp
  rw [e1, e2, e3]
  field_simp
  ring

/-- The flux the Riemann solvers use for one side is the Euler flux. -/
theorem physFlux_eq (gamma : ℝ) (U : St ℝ d) (vg n : Fin d → ℝ) (hr : U.1 ≠ 0) : physFlux gamma U vg n = eulerFlux gamma vg n U := by
  have hv : (side gamma U).velo = fun i => U.2.1 i / U.1 := by
    funext i
    simp only [side, St.c0, St.cv, Pi.smul_apply, smul_eq_mul]
    rw [mul_comm, div_eq_mul_inv]
  have hp : (side gamma U).p = (gamma - 1) * (U.2.2 - (∑ i, U.2.1 i * U.2.1 i) / (2 * U.1)) := by
    simp only [side, thermal, St.c0, St.cv, St.c4, dot_smul_self]
    congr 1
    simp only [dotProduct]
    field_simp
  rw [physFlux, hv, hp]
  simp only [fluxXY, eulerFlux, St.c0, St.cv, St.c4, dotProduct, Pi.sub_apply, Prod.smul_fst, Prod.smul_snd, smul_eq_mul, Prod.mk.injEq]
  refine ⟨mul_comm _ _, funext fun i => ?_, ?_⟩
  · simp only [Pi.add_apply, Pi.smul_apply, smul_eq_mul]
    ring
  · ring

/-- **C42** Along any differentiable curve of states with nonzero density, the Euler flux through a moving face changes at the rate
that `IdealGasUIncrement` and `GasInviscidFluxFacialIncrement` compute from the rate of the state. -/
theorem flux_increment_deriv (gamma : ℝ) (vg n : Fin d → ℝ) {c : ℝ → St ℝ d} {c' : St ℝ d} {t : ℝ} (h : HasDerivAt c c' t)
    (hr : (c t).1 ≠ 0) :
    HasDerivAt (fun s => eulerFlux gamma vg n (c s))
      (jacobian gamma (c t) (primOf gamma (c t)).2.2 (primOf gamma (c t)).2.1 vg n c') t := by
  obtain ⟨h0, hv, h4⟩ := St.hasDeriv h
  have hvel := velo_deriv h hr
  have hp := pressure_deriv gamma h hr
  have hw := HasDerivAt.fun_sum (u := univ) fun j (_ : j ∈ univ) => ((hvel j).sub_const (vg j)).mul_const (n j)
  have hvn := HasDerivAt.fun_sum (u := univ) fun j (_ : j ∈ univ) => (hvel j).mul_const (n j)
  refine HasDerivAt.congr_deriv ((h0.fun_mul hw).prodMk
    ((hasDerivAt_pi.mpr fun i => ((hv i).fun_mul hw).fun_add (hp.mul_const (n i))).prodMk
      ((h4.fun_mul hw).fun_add (hp.fun_mul hvn)))) ?_
  have hdv : (uIncrement (c t) c' (primOf gamma (c t)).2.1 gamma).1 =
      fun i => (c'.2.1 i - (c t).2.1 i / (c t).1 * c'.1) / (c t).1 := by
    funext i
    simp only [uIncrement, St.c0, St.cv, Pi.smul_apply, Pi.sub_apply, smul_eq_mul]
    field_simp
  have hdp : (uIncrement (c t) c' (primOf gamma (c t)).2.1 gamma).2 =
      (gamma - 1) * (c'.2.2 - 1 / 2 * ((∑ i, c'.2.1 i * ((c t).2.1 i / (c t).1)) +
        ∑ i, (c t).2.1 i * ((c'.2.1 i - (c t).2.1 i / (c t).1 * c'.1) / (c t).1))) := by
    have e : (uIncrement (c t) c' (primOf gamma (c t)).2.1 gamma).2 = (gamma - 1) * (c'.c4 - 1 / 2 *
      (c'.cv ⬝ᵥ (primOf gamma (c t)).2.1 + (c t).cv ⬝ᵥ (uIncrement (c t) c' (primOf gamma (c t)).2.1 gamma).1)) := rfl
    rw [e, hdv]
    rfl
  rw [jacobian, hdv, hdp]
  generalize (gamma - 1) * (c'.2.2 - 1 / 2 * ((∑ i, c'.2.1 i * ((c t).2.1 i / (c t).1)) +
        ∑ i, (c t).2.1 i * ((c'.2.1 i - (c t).2.1 i / (c t).1 * c'.1) / (c t).1))) = dp
  have e1 : ∑ j, (c'.2.1 j - (c t).2.1 j / (c t).1 * c'.1) / (c t).1 * n j =
      ((∑ j, c'.2.1 j * n j) - (∑ j, (c t).2.1 j / (c t).1 * n j) * c'.1) / (c t).1 := by
    rw [sum_mul, ← sum_sub_distrib, sum_div]
    exact sum_congr rfl fun j _ => by ring
  have e2 : ∑ j, ((c t).2.1 j / (c t).1 - vg j) * n j = (∑ j, (c t).2.1 j / (c t).1 * n j) - ∑ j, vg j * n j := by
    rw [← sum_sub_distrib]
    exact sum_congr rfl fun j _ => by ring
  simp only [fluxIncrement, primOf, St.c0, St.cv, St.c4, dotProduct, Prod.ext_iff, Prod.fst_sub, Prod.snd_sub, Prod.smul_fst,
    Prod.smul_snd, smul_eq_mul, e1, e2]
  refine ⟨?_, funext fun i => ?_, ?_⟩
  · field_simp
    ring
  · simp only [Pi.sub_apply, Pi.add_apply, Pi.smul_apply, smul_eq_mul]
    ring
  · ring

/-- non-vacuity: a curve with nonzero density. -/
example : HasDerivAt (fun s : ℝ => ((1 + s, fun _ => s, 3) : St ℝ 2)) (1, fun _ => 1, 0) 0 ∧
    ((fun s : ℝ => ((1 + s, fun _ => s, 3) : St ℝ 2)) 0).1 ≠ 0 := by
  refine ⟨HasDerivAt.prodMk ((hasDerivAt_id (0 : ℝ)).const_add 1) (HasDerivAt.prodMk (hasDerivAt_pi.mpr fun _ => hasDerivAt_id (0 : ℝ))
    (hasDerivAt_const (0 : ℝ) (3 : ℝ))), ?_⟩
  norm_num

/-- **C44** If the conservative variables and the additional ones change along a direction at the rates in a row of the
conservative gradient, then density, velocity, pressure and the additional variables per mass change at the rates in the same row of
the gradient that `GradientCons2Prim_IdealGas` returns. -/
theorem gradCons2Prim_deriv (gamma : ℝ) {c : ℝ → St ℝ d} {e : ℝ → Fin m → ℝ} {g : St ℝ d} {ge : Fin m → ℝ} {t : ℝ}
    (h : HasDerivAt c g t) (he : HasDerivAt e ge t) (hr : (c t).1 ≠ 0) :
    HasDerivAt (fun s => (primOf gamma (c s), fun k => e s k / (c s).1)) (gradCons2Prim gamma (c t) (e t) g ge) t := by
  obtain ⟨h0, hv, h4⟩ := St.hasDeriv h
  have hvel := velo_deriv h hr
  have hp := pressure_deriv gamma h hr
  refine HasDerivAt.congr_deriv ((h0.prodMk ((hasDerivAt_pi.mpr hvel).prodMk hp)).prodMk
    (hasDerivAt_pi.mpr fun k => (hasDerivAt_pi.mp he k).fun_div h0 hr)) ?_
  simp only [gradCons2Prim, St.c0, St.cv, St.c4, Prod.mk.injEq, true_and]
  refine ⟨⟨funext fun i => ?_, ?_⟩, funext fun k => ?_⟩
  · simp only [Pi.smul_apply, Pi.sub_apply, smul_eq_mul]
    field_simp
  · congr 3
    simp only [dotProduct, Pi.smul_apply, Pi.sub_apply, smul_eq_mul]
    congr 1
    · exact sum_congr rfl fun i _ => by ring
    · exact sum_congr rfl fun i _ => by field_simp
  · simp only [Pi.smul_apply, Pi.sub_apply, smul_eq_mul]
    field_simp

/-- **C44** (velocity only) `GetGradVelo` is the same rate. -/
theorem gradVelo_deriv {c : ℝ → St ℝ d} {g : St ℝ d} {t : ℝ} (h : HasDerivAt c g t) (hr : (c t).1 ≠ 0) :
    HasDerivAt (fun s => fun i => (c s).2.1 i / (c s).1) (gradVelo (c t) g) t := by
  refine hasDerivAt_pi.mpr fun i => (velo_deriv h hr i).congr_deriv ?_
  simp only [gradVelo, St.c0, St.cv, Pi.smul_apply, Pi.sub_apply, smul_eq_mul]
  field_simp

end DNDSR.Gas

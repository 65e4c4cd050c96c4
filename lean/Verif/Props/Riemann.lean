import Verif.Proof.Riemann

/-!
# Consistency of the Riemann solvers (C41)
-/

namespace DNDSR.Gas

open Finset

variable {d : Nat} {gamma : ℝ}

theorem roeCombine_self (scheme : Nat) (U : St ℝ d) (vg n : Fin d → ℝ) (A : Avg d) (vN : ℝ) (l : Lam) (hU : U.1 ≠ 0) :
    roeCombine scheme gamma U U vg n A vN l = eulerFlux gamma vg n U := by
  simp only [roeCombine, sub_self, waves_zero, waveSum_zero, smul_zero, sub_zero, ite_self]
  rw [physFlux_eq _ _ _ _ hU]
  module

theorem verySmall_pos : 0 < verySmall := by
  unfold verySmall
  positivity

theorem hllepV1_self {U ULm URm : St ℝ d} (vg n : Fin d → ℝ) (hU : U.1 ≠ 0) :
    (hllepCombine true gamma U U ULm URm vg n).1 = eulerFlux gamma vg n U := by
  simp only [hllepCombine, sub_self, waves_zero, waveSum_zero, smul_zero, sub_zero, reduceCtorEq, if_false]
  rw [physFlux_eq _ _ _ _ hU]
  module

theorem hllep_self (hg : 1 < gamma) {U : St ℝ d} (vg n : Fin d → ℝ) (hU : Physical gamma U) :
    ∃ θ : ℝ, (hllepCombine false gamma U U U U vg n).1 = θ • eulerFlux gamma vg n U ∧ θ ≤ 1 ∧
      1 - θ ≤ verySmall / (2 * √(gamma * (primOf gamma U).2.2 / U.1)) := by
  have ha : √(gamma * (primOf gamma U).2.2 / U.1) = √(side gamma U).asqr := by rw [side_asqr, side_p hU.rho.ne']
  rw [ha]
  have hapos : 0 < √(side gamma U).asqr := Real.sqrt_pos.mpr (side_asqr_pos hU hg)
  simp only [hllepCombine, if_true, sub_self, waves_zero, mul_zero, zero_smul, smul_zero, add_zero, physFlux_eq _ _ _ _ hU.rho.ne']
  set a := √(side gamma U).asqr
  set u := ((side gamma U).velo - vg) ⬝ᵥ n
  set SP := max (max |(roeAverage gamma U U).velo ⬝ᵥ n - vg ⬝ᵥ n + √(roeAverage gamma U U).asqr| (u + a)) 0
  set SM := min (min |(roeAverage gamma U U).velo ⬝ᵥ n - vg ⬝ᵥ n - √(roeAverage gamma U U).asqr| (u - a)) 0
  have hD : 2 * a ≤ SP - SM := by
    have h1 : u + a ≤ SP := le_trans (le_max_right _ _) (le_max_left _ _)
    have h2 : SM ≤ u - a := le_trans (min_le_left _ _) (min_le_right _ _)
    linarith
  have hvs := verySmall_pos
  have hDp : 0 < SP - SM := by linarith
  refine ⟨(SP - SM) / (SP - SM + verySmall), ?_, ?_, ?_⟩
  · rw [signP, if_pos hDp.le, one_mul, ← sub_smul, smul_smul, mul_comm, div_eq_mul_inv]
  · rw [div_le_one (by linarith)]
    linarith
  · have : 1 - (SP - SM) / (SP - SM + verySmall) = verySmall / (SP - SM + verySmall) := by
      field_simp
      ring
    rw [this]
    exact div_le_div_of_nonneg_left hvs.le (by linarith) (by linarith)

theorem hllcSpeeds_self (hg : 1 < gamma) {U : St ℝ d} (vg n : Fin d → ℝ) (hU : Physical gamma U) :
    hllcSpeeds gamma U U vg n = (((side gamma U).velo - vg) ⬝ᵥ n - √(side gamma U).asqr,
      ((side gamma U).velo - vg) ⬝ᵥ n + √(side gamma U).asqr) := by
  have hp : 0 < (side gamma U).p := by
    rw [side_p hU.rho.ne']
    exact hU.p
  have hq : ∀ x, x ≤ (side gamma U).p → hllcQ gamma (side gamma U).p x = 1 := fun x hx => if_pos hx
  simp only [hllcSpeeds, sub_self, mul_zero, zero_mul, sub_zero]
  rw [hq _ (max_le hp.le (by linarith)), mul_one]

theorem hllcContact_self {U : St ℝ d} (vg n : Fin d → ℝ) (hU : 0 < U.1) {u a : ℝ} (hu : u = ((side gamma U).velo - vg) ⬝ᵥ n)
    (ha : 0 < a) (hbig : verySmall < 2 * U.1 * a) : hllcContact gamma U U vg n (u - a) (u + a) u u = u := by
  have hdiv : U.c0 * (u - a - u) - U.c0 * (u + a - u) = -(2 * U.1 * a) := by
    show U.1 * (u - a - u) - U.1 * (u + a - u) = _
    ring
  have hm : U.cv ⬝ᵥ n - (vg ⬝ᵥ n) * U.c0 = U.1 * u := by
    show U.2.1 ⬝ᵥ n - (vg ⬝ᵥ n) * U.1 = _
    rw [hu, side_mom (gamma := gamma) hU.ne', smul_dotProduct, sub_dotProduct, smul_eq_mul]
    ring
  have hpos : 0 < 2 * U.1 * a := by positivity
  simp only [hllcContact, hdiv, hm, sub_self, zero_add]
  rw [abs_neg, abs_of_pos hpos, if_pos hbig]
  field_simp
  ring

/-- behind either wave, for a uniform state: the Euler flux and an error in the energy -/
theorem hllcBehind_self {U : St ℝ d} (vg n : Fin d → ℝ) (hU : 0 < U.1) {u s : ℝ} (hu : u = ((side gamma U).velo - vg) ⬝ᵥ n)
    (hs : s ≠ 0) : hllcBehind gamma U vg n (u + s) u u =
      if |s| < verySmall then eulerFlux gamma vg n U
      else eulerFlux gamma vg n U + (0, 0, -((side gamma U).p * (vg ⬝ᵥ n) * (1 + u / s))) := by
  have e1 : u + s - u = s := by ring
  have hF : physFlux gamma U vg n = (u * U.1, u • U.2.1 + (side gamma U).p • n, u * U.2.2 + (u + vg ⬝ᵥ n) * (side gamma U).p) := by
    simp only [physFlux, fluxXY, St.c0, St.cv, St.c4, Prod.smul_fst, Prod.smul_snd, smul_eq_mul, ← hu]
    rw [show (side gamma U).velo ⬝ᵥ n = u + vg ⬝ᵥ n by rw [hu, sub_dotProduct]; ring]
  rw [← physFlux_eq _ _ _ _ hU.ne']
  simp only [hllcBehind, e1, sub_self, mul_zero, add_zero]
  by_cases hsm : |s| < verySmall
  · rw [if_pos hsm, if_pos hsm]
  · rw [if_neg hsm, if_neg hsm, hF]
    refine Prod.ext ?_ (Prod.ext ?_ ?_)
    · simp only [Prod.smul_fst, Prod.fst_add, Prod.fst_sub, smul_eq_mul]
      field_simp
      ring
    · funext i
      simp only [Prod.smul_fst, Prod.fst_add, Prod.fst_sub, Prod.smul_snd, Prod.snd_add, Prod.snd_sub, smul_eq_mul, Pi.smul_apply,
        Pi.add_apply, Pi.sub_apply, Pi.zero_apply]
      field_simp
      ring
    · simp only [Prod.smul_snd, Prod.snd_add, Prod.snd_sub, smul_eq_mul]
      field_simp
      ring

/-- What HLLC returns for the same state on both sides and as mean states, when the face is inside the fan of waves. -/
theorem hllc_self (hg : 1 < gamma) {U : St ℝ d} (vg n : Fin d → ℝ) (hU : Physical gamma U)
    (hbig : verySmall < 2 * U.1 * √(side gamma U).asqr) :
    hllcSelect gamma U U vg n (hllcSpeeds gamma U U vg n).1 (hllcSpeeds gamma U U vg n).2
        (((side gamma U).velo - vg) ⬝ᵥ n) (((side gamma U).velo - vg) ⬝ᵥ n) =
      (let u := ((side gamma U).velo - vg) ⬝ᵥ n
       let a := √(side gamma U).asqr
       if a ≤ u ∨ u ≤ -a ∨ a < verySmall then eulerFlux gamma vg n U
       else if 0 ≤ u then eulerFlux gamma vg n U + (0, 0, -((side gamma U).p * (vg ⬝ᵥ n) * (1 - u / a)))
       else eulerFlux gamma vg n U + (0, 0, -((side gamma U).p * (vg ⬝ᵥ n) * (1 + u / a)))) := by
  have hapos : 0 < √(side gamma U).asqr := Real.sqrt_pos.mpr (side_asqr_pos hU hg)
  rw [hllcSpeeds_self hg vg n hU]
  generalize ha : √(side gamma U).asqr = a at hapos hbig
  generalize hu : ((side gamma U).velo - vg) ⬝ᵥ n = u
  have hc := hllcContact_self (gamma := gamma) vg n hU.rho hu.symm hapos hbig
  have hL := hllcBehind_self (gamma := gamma) vg n hU.rho hu.symm (neg_ne_zero.mpr hapos.ne')
  have hR := hllcBehind_self (gamma := gamma) vg n hU.rho hu.symm hapos.ne'
  rw [abs_neg, abs_of_pos hapos, ← sub_eq_add_neg, div_neg, ← sub_eq_add_neg] at hL
  rw [abs_of_pos hapos] at hR
  simp only [hllcSelect, hc, physFlux_eq _ _ _ _ hU.rho.ne', hL, hR]
  by_cases h1 : a ≤ u
  · rw [if_pos (by linarith), if_pos (Or.inl h1)]
  rw [if_neg (by linarith)]
  by_cases h2 : u ≤ -a
  · rw [if_pos (by linarith), if_pos (Or.inr (Or.inl h2))]
  rw [if_neg (by linarith)]
  by_cases h3 : a < verySmall
  · rw [if_pos h3, if_pos h3, if_pos (Or.inr (Or.inr h3)), ite_self]
  rw [if_neg h3, if_neg h3, if_neg (show ¬ (a ≤ u ∨ u ≤ -a ∨ a < verySmall) by tauto)]

/-- The solvers that return the Euler flux exactly whatever the mean states. -/
def Solver.exact : Solver → Prop
  | .roe | .roeM1 | .roeM2 | .roeM3 | .roeM4 | .roeM5 | .hllepV1 => True
  | .hllep | .hllc | .unknown => False

/-- **C41** (Roe in all variants, and the second form of HLLEP) When both sides are the same state with positive density, the
returned flux is the Euler flux, whatever the (physical) mean states, the normal, the velocity of the mesh and the entropy fix. -/
theorem flux_consistent_exact (s : Solver) (hs : s.exact) (hg : 1 < gamma) {U ULm URm : St ℝ d} (vg n : Fin d → ℝ) (dLambda : ℝ)
    (hU : 0 < U.1) (hLm : Physical gamma ULm) (hRm : Physical gamma URm) :
    ∃ l : Lam, flux s gamma U U ULm URm vg n dLambda = .ok (eulerFlux gamma vg n U, l) := by
  have hpos := roe_asqr_pos hg hLm hRm
  have h0 : ¬ ¬ (0 < U.c0 ∧ 0 < U.c0) := not_not.mpr ⟨hU, hU⟩
  have hroe : ∀ k, k ≤ 5 → ∃ l : Lam, roeFlux k gamma U U ULm URm vg n dLambda = .ok (eulerFlux gamma vg n U, l) := fun k hk => by
    refine ⟨roeSpeeds roeLam k gamma ULm URm vg n dLambda, ?_⟩
    rw [roeFlux, if_neg h0, if_neg (not_not.mpr hpos), if_neg (by omega), roeCombine_self _ _ _ _ _ _ _ hU.ne']
  cases s with
  | roe => exact hroe 0 (by omega)
  | roeM1 => exact hroe 1 (by omega)
  | roeM2 => exact hroe 2 (by omega)
  | roeM3 => exact hroe 3 (by omega)
  | roeM4 => exact hroe 4 (by omega)
  | roeM5 => exact hroe 5 (by omega)
  | hllepV1 =>
    refine ⟨(hllepCombine true gamma U U ULm URm vg n).2, ?_⟩
    rw [flux, hllepFlux, if_neg h0, if_neg (not_not.mpr hpos)]
    exact congrArg Res.ok (Prod.ext (hllepV1_self vg n hU.ne') rfl)
  | hllep => exact hs.elim
  | hllc => exact hs.elim
  | unknown => exact hs.elim

/-- **C41** (first form of HLLEP) When both sides and both means are the same physical state, the returned flux is the Euler flux up
to a factor that differs from one by at most `1e-200` over twice the sound speed (a guard against division by zero). -/
theorem hllep_consistent (hg : 1 < gamma) {U : St ℝ d} (vg n : Fin d → ℝ) (dLambda : ℝ) (hU : Physical gamma U) :
    ∃ (l : Lam) (θ : ℝ), flux .hllep gamma U U U U vg n dLambda = .ok (θ • eulerFlux gamma vg n U, l) ∧ θ ≤ 1 ∧
      1 - θ ≤ (1 / 10 ^ 200) / (2 * √(gamma * (primOf gamma U).2.2 / U.1)) := by
  have hpos := roe_asqr_pos hg hU hU
  have h0 : ¬ ¬ (0 < U.c0 ∧ 0 < U.c0) := not_not.mpr ⟨hU.rho, hU.rho⟩
  obtain ⟨θ, h1, h2, h3⟩ := hllep_self hg vg n hU
  refine ⟨(hllepCombine false gamma U U U U vg n).2, θ, ?_, h2, h3⟩
  rw [flux, hllepFlux, if_neg h0, if_neg (not_not.mpr hpos)]
  exact congrArg Res.ok (Prod.ext h1 rfl)

theorem hllcFlux_self (hg : 1 < gamma) {U : St ℝ d} (vg n : Fin d → ℝ) (dLambda : ℝ) (hU : Physical gamma U) :
    ∃ l : Lam, flux .hllc gamma U U U U vg n dLambda =
      .ok (hllcSelect gamma U U vg n (hllcSpeeds gamma U U vg n).1 (hllcSpeeds gamma U U vg n).2
        (((side gamma U).velo - vg) ⬝ᵥ n) (((side gamma U).velo - vg) ⬝ᵥ n), l) := by
  have hpos := roe_asqr_pos hg hU hU
  have h0 : ¬ ¬ (0 < U.c0 ∧ 0 < U.c0) := not_not.mpr ⟨hU.rho, hU.rho⟩
  exact ⟨⟨_, _, _⟩, (if_neg h0).trans (if_neg (not_not.mpr hpos))⟩

/-- **C41** (HLLC, fixed mesh) When both sides and both means are the same physical state and the mesh does not move along the
normal, the returned flux is the Euler flux.

Missing from C41: a mesh moving along the normal, where the claim is false (`hllc_moving_mesh_wrong`). -/
theorem hllc_consistent_partial (hg : 1 < gamma) {U : St ℝ d} (vg n : Fin d → ℝ) (dLambda : ℝ) (hU : Physical gamma U)
    (hvg : vg ⬝ᵥ n = 0) (hbig : 1 / 10 ^ 200 < 2 * U.1 * √(gamma * (primOf gamma U).2.2 / U.1)) :
    ∃ l : Lam, flux .hllc gamma U U U U vg n dLambda = .ok (eulerFlux gamma vg n U, l) := by
  obtain ⟨l, hl⟩ := hllcFlux_self hg vg n dLambda hU
  refine ⟨l, hl.trans ?_⟩
  have ha : gamma * (primOf gamma U).2.2 / U.1 = (side gamma U).asqr := by rw [side_asqr, side_p hU.rho.ne']
  rw [ha] at hbig
  rw [hllc_self hg vg n hU hbig]
  have hz : ((0, 0, 0) : St ℝ d) = 0 := rfl
  simp only [hvg, mul_zero, zero_mul, neg_zero, hz, add_zero, ite_self]

/-- air at rest with density 7/5 and pressure 1, hence sound speed 1 -/
noncomputable def rest : St ℝ 2 := (7 / 5, 0, 5 / 2)

theorem rest_p : (primOf (7 / 5) rest).2.2 = 1 := by
  norm_num [primOf, rest]

theorem rest_physical : Physical (7 / 5) rest := ⟨by norm_num [rest], by rw [rest_p]; norm_num⟩

/-- non-vacuity: the state at rest meets the hypotheses of the theorems above. -/
example : (1 : ℝ) < 7 / 5 ∧ Physical (7 / 5) rest ∧ (0 : Fin 2 → ℝ) ⬝ᵥ ![1, 0] = 0 ∧
    1 / 10 ^ 200 < 2 * rest.1 * √((7 / 5 : ℝ) * (primOf (7 / 5) rest).2.2 / rest.1) := by
  refine ⟨by norm_num, rest_physical, zero_dotProduct _, ?_⟩
  rw [rest_p, show (7 / 5 : ℝ) * 1 / rest.1 = 1 by norm_num [rest], Real.sqrt_one]
  norm_num [rest]

/-- **C41 is false for HLLC on a moving mesh**: for air at rest (density 7/5, pressure 1, sound speed 1) and a face that moves along its
normal at half the sound speed, with the same state on both sides, the energy component of the returned flux is not that of the Euler
flux. -/
theorem hllc_moving_mesh_wrong :
    ∃ F l, flux .hllc (7 / 5) rest rest rest rest ![1 / 2, 0] ![1, 0] 0 = .ok (F, l) ∧
      F.2.2 = (eulerFlux (7 / 5) ![1 / 2, 0] ![1, 0] rest).2.2 - 1 / 4 := by
  have hg : (1 : ℝ) < 7 / 5 := by norm_num
  obtain ⟨l, hl⟩ := hllcFlux_self hg ![1 / 2, 0] ![1, 0] 0 rest_physical
  have hp : (side (7 / 5) rest).p = 1 := by rw [side_p rest_physical.rho.ne', rest_p]
  have hasq : (side (7 / 5) rest).asqr = 1 := by
    rw [side_asqr, hp]
    norm_num [rest]
  have hv : (side (7 / 5) rest).velo = 0 := by
    rw [side_velo]
    funext i
    simp [rest]
  refine ⟨_, l, hl, ?_⟩
  rw [hllc_self hg _ _ rest_physical (by
    rw [hasq, Real.sqrt_one]
    norm_num [rest, verySmall])]
  simp only [hv, hp, hasq, Real.sqrt_one]
  have hu : ((0 : Fin 2 → ℝ) - ![1 / 2, 0]) ⬝ᵥ ![1, 0] = -(1 / 2) := by
    simp [dotProduct, Fin.sum_univ_two]
  have hvgn : (![1 / 2, 0] : Fin 2 → ℝ) ⬝ᵥ ![1, 0] = 1 / 2 := by
    simp [dotProduct, Fin.sum_univ_two]
  rw [hu, hvgn, if_neg (by norm_num [verySmall]), if_neg (by norm_num)]
  simp only [Prod.snd_add]
  norm_num
  ring

end DNDSR.Gas

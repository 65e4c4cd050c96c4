import Verif.Props.Riemann

/-!
# Roe's linearization, upwinding, mirror symmetry and batches (C57, C58, C59)
-/

namespace DNDSR.Gas

open Finset

variable {d : Nat} {gamma : ℝ}

section Property

/-- the identity behind Roe's average, for any two quantities carried by the gas -/
theorem roe_identity {s t : ℝ} (hst : s + t ≠ 0) (f f' g g' : ℝ) :
    t * t * f' * g' - s * s * f * g =
      (s * g + t * g') / (s + t) * (t * t * f' - s * s * f) + s * t * (g' - g) * ((s * f + t * f') / (s + t)) := by
  field_simp
  ring

/-- a matching pair of physical states, their average and the jumps between them -/
structure Jump (gamma : ℝ) (UL UR : St ℝ d) (vg n : Fin d → ℝ) (A : Avg d) (J Dp : ℝ) : Prop where
  mass : (UR - UL).2.1 ⬝ᵥ n = A.velo ⬝ᵥ n * (UR - UL).1 + J
  mom : (physFlux gamma UR vg n - physFlux gamma UL vg n).2.1 =
    (A.velo ⬝ᵥ n - vg ⬝ᵥ n) • (UR - UL).2.1 + J • A.velo + Dp • n
  ene : (physFlux gamma UR vg n - physFlux gamma UL vg n).2.2 =
    (A.velo ⬝ᵥ n - vg ⬝ᵥ n) * (UR - UL).2.2 + J * A.H + A.velo ⬝ᵥ n * Dp
  p : (gamma - 1) * ((UR - UL).2.2 - A.velo ⬝ᵥ (UR - UL).2.1 + 1 / 2 * A.vsqr * (UR - UL).1) = Dp
  fmass : (physFlux gamma UR vg n - physFlux gamma UL vg n).1 = (UR - UL).2.1 ⬝ᵥ n - vg ⬝ᵥ n * (UR - UL).1

theorem jump_roe {UL UR : St ℝ d} (vg n : Fin d → ℝ) (hL : 0 < UL.1) (hR : 0 < UR.1) :
    Jump gamma UL UR vg n (roeAverage gamma UL UR)
      (√UL.c0 * √UR.c0 * ((side gamma UR).velo ⬝ᵥ n - (side gamma UL).velo ⬝ᵥ n)) ((side gamma UR).p - (side gamma UL).p) := by
  have hst := sqrt_add_ne hL hR
  have rL : UL.1 = √UL.c0 * √UL.c0 := (Real.mul_self_sqrt hL.le).symm
  have rR : UR.1 = √UR.c0 * √UR.c0 := (Real.mul_self_sqrt hR.le).symm
  have mL := side_mom (gamma := gamma) hL.ne'
  have mR := side_mom (gamma := gamma) hR.ne'
  have eL := side_ene (gamma := gamma) (U := UL)
  have eR := side_ene (gamma := gamma) (U := UR)
  have HL : UL.2.2 + (side gamma UL).p = UL.1 * (side gamma UL).H := by
    rw [side_H]
    field_simp
  have HR : UR.2.2 + (side gamma UR).p = UR.1 * (side gamma UR).H := by
    rw [side_H]
    field_simp
  have hvn : (roeAverage gamma UL UR).velo ⬝ᵥ n =
      (√UL.c0 * ((side gamma UL).velo ⬝ᵥ n) + √UR.c0 * ((side gamma UR).velo ⬝ᵥ n)) / (√UL.c0 + √UR.c0) := by
    simp only [roeAverage, smul_dotProduct, add_dotProduct, smul_eq_mul]
    rw [mul_comm, div_eq_mul_inv]
  have hvi : ∀ i, (roeAverage gamma UL UR).velo i =
      (√UL.c0 * (side gamma UL).velo i + √UR.c0 * (side gamma UR).velo i) / (√UL.c0 + √UR.c0) := fun i => by
    simp only [roeAverage, Pi.smul_apply, Pi.add_apply, smul_eq_mul]
    rw [mul_comm, div_eq_mul_inv]
  have hH : (roeAverage gamma UL UR).H =
      (√UL.c0 * (side gamma UL).H + √UR.c0 * (side gamma UR).H) / (√UL.c0 + √UR.c0) := rfl
  have hA : (roeAverage gamma UL UR).velo =
      (√UL.c0 + √UR.c0)⁻¹ • (√UL.c0 • (side gamma UL).velo + √UR.c0 • (side gamma UR).velo) := rfl
  have hvsq : (roeAverage gamma UL UR).vsqr = (roeAverage gamma UL UR).velo ⬝ᵥ (roeAverage gamma UL UR).velo := rfl
  have hfl : ∀ U : St ℝ d, physFlux gamma U vg n = (((side gamma U).velo ⬝ᵥ n - vg ⬝ᵥ n) * U.1,
      ((side gamma U).velo ⬝ᵥ n - vg ⬝ᵥ n) • U.2.1 + (side gamma U).p • n,
      ((side gamma U).velo ⬝ᵥ n - vg ⬝ᵥ n) * U.2.2 + (side gamma U).velo ⬝ᵥ n * (side gamma U).p) := fun U => by
    simp only [physFlux, fluxXY, St.c0, St.cv, St.c4, Prod.smul_fst, Prod.smul_snd, smul_eq_mul, sub_dotProduct]
  generalize hs : √UL.c0 = s at *
  generalize ht : √UR.c0 = t at *
  generalize (roeAverage gamma UL UR) = A at *
  refine ⟨?_, ?_, ?_, ?_, ?_⟩
  · rw [hvn]
    simp only [Prod.snd_sub, Prod.fst_sub, mL, mR, sub_dotProduct, smul_dotProduct, smul_eq_mul, rL, rR]
    field_simp
    ring
  · funext i
    have := roe_identity hst ((side gamma UL).velo i) ((side gamma UR).velo i) ((side gamma UL).velo ⬝ᵥ n) ((side gamma UR).velo ⬝ᵥ n)
    simp only [hfl, Prod.snd_sub, Prod.fst_sub, mL, mR, rL, rR, Pi.sub_apply, Pi.add_apply, Pi.smul_apply, smul_eq_mul, hvn, hvi]
    linear_combination this
  · have := roe_identity hst (side gamma UL).H (side gamma UR).H ((side gamma UL).velo ⬝ᵥ n) ((side gamma UR).velo ⬝ᵥ n)
    simp only [hfl, Prod.snd_sub, Prod.fst_sub, hvn, hH]
    rw [rL] at HL
    rw [rR] at HR
    linear_combination this + ((side gamma UR).velo ⬝ᵥ n - (s * ((side gamma UL).velo ⬝ᵥ n) + t * ((side gamma UR).velo ⬝ᵥ n)) / (s + t)) * HR -
      ((side gamma UL).velo ⬝ᵥ n - (s * ((side gamma UL).velo ⬝ᵥ n) + t * ((side gamma UR).velo ⬝ᵥ n)) / (s + t)) * HL
  · rw [hvsq, hA]
    simp only [Prod.snd_sub, Prod.fst_sub, mL, mR, smul_dotProduct, dotProduct_sub, dotProduct_smul, add_dotProduct, dotProduct_add, smul_eq_mul,
      dotProduct_comm (side gamma UR).velo (side gamma UL).velo, rL, rR]
    rw [rL] at eL
    rw [rR] at eR
    generalize (side gamma UL).velo ⬝ᵥ (side gamma UL).velo = x at *
    generalize (side gamma UR).velo ⬝ᵥ (side gamma UR).velo = y at *
    generalize (side gamma UL).velo ⬝ᵥ (side gamma UR).velo = z at *
    have key : (s + t)⁻¹ * (t * t * (s * z + t * y) - s * s * (s * x + t * z)) -
        1 / 2 * ((s + t)⁻¹ * ((s + t)⁻¹ * (s * (s * x + t * z) + t * (s * z + t * y)))) * (t * t - s * s) =
        (t * t * y - s * s * x) / 2 := by
      field_simp
      ring
    linear_combination eR - eL - (gamma - 1) * key
  · simp only [hfl, Prod.snd_sub, Prod.fst_sub, mL, mR, sub_dotProduct, smul_dotProduct, smul_eq_mul]
    ring

/-- the wave strengths in terms of the jumps -/
theorem waves_jump {UL UR : St ℝ d} {vg n : Fin d → ℝ} {A : Avg d} {J Dp a : ℝ} (h : Jump gamma UL UR vg n A J Dp)
    (ha : a * a = A.asqr) (ha0 : a ≠ 0) (hA : A.asqr = (gamma - 1) * (A.H - 1 / 2 * A.vsqr)) (hv : A.vsqr = A.velo ⬝ᵥ A.velo) :
    waves gamma A a (A.velo ⬝ᵥ n) n (UR - UL) =
      ⟨(Dp / a - J) / (2 * a), (UR - UL).1 - Dp / (a * a), (UR - UL).2.1 - (UR - UL).1 • A.velo - J • n, (Dp / a + J) / (2 * a)⟩ := by
  have hN : ((UR - UL).2.1 - (UR - UL).1 • A.velo) ⬝ᵥ n = J := by
    rw [sub_dotProduct, smul_dotProduct, h.mass, smul_eq_mul]
    ring
  have ha1 : (waves gamma A a (A.velo ⬝ᵥ n) n (UR - UL)).a1 = (UR - UL).1 - Dp / (a * a) := by
    simp only [waves, St.c0, St.cv, St.c4]
    rw [hN, h.mass]
    simp only [sub_dotProduct, smul_dotProduct, smul_eq_mul, dotProduct_comm (UR - UL).2.1 A.velo]
    rw [← ha, dotProduct_comm n A.velo, ← hv]
    have e := h.p
    rw [← ha] at hA
    field_simp
    linear_combination (-(UR - UL).1) * hA - e
  have ha0' : (waves gamma A a (A.velo ⬝ᵥ n) n (UR - UL)).a0 = (Dp / a - J) / (2 * a) := by
    have : (waves gamma A a (A.velo ⬝ᵥ n) n (UR - UL)).a0 = ((UR - UL).1 * (A.velo ⬝ᵥ n + a) - (UR - UL).2.1 ⬝ᵥ n -
      a * (waves gamma A a (A.velo ⬝ᵥ n) n (UR - UL)).a1) / (2 * a) := rfl
    rw [this, ha1, h.mass]
    field_simp
    ring
  have haT : (waves gamma A a (A.velo ⬝ᵥ n) n (UR - UL)).aT = (UR - UL).2.1 - (UR - UL).1 • A.velo - J • n := by
    have : (waves gamma A a (A.velo ⬝ᵥ n) n (UR - UL)).aT = (UR - UL).2.1 - (UR - UL).1 • A.velo -
      (((UR - UL).2.1 - (UR - UL).1 • A.velo) ⬝ᵥ n) • n := rfl
    rw [this, hN]
  have ha4 : (waves gamma A a (A.velo ⬝ᵥ n) n (UR - UL)).a4 = (Dp / a + J) / (2 * a) := by
    have : (waves gamma A a (A.velo ⬝ᵥ n) n (UR - UL)).a4 = (UR - UL).1 - ((waves gamma A a (A.velo ⬝ᵥ n) n (UR - UL)).a0 +
      (waves gamma A a (A.velo ⬝ᵥ n) n (UR - UL)).a1) := rfl
    rw [this, ha0', ha1]
    field_simp
    ring
  rw [← ha1, ← ha0', ← haT, ← ha4]

/-- with the eigenvalues `k (u - a)`, `k u`, `k (u + a)` the waves add up to `k` times the jump of the flux -/
theorem waveSum_jump {UL UR : St ℝ d} {vg n : Fin d → ℝ} {A : Avg d} {J Dp a : ℝ} (h : Jump gamma UL UR vg n A J Dp)
    (ha : a * a = A.asqr) (ha0 : a ≠ 0) (hA : A.asqr = (gamma - 1) * (A.H - 1 / 2 * A.vsqr)) (hv : A.vsqr = A.velo ⬝ᵥ A.velo)
    (hg : gamma ≠ 1) (k : ℝ) (l : Lam) (h0 : l.l0 = k * (A.velo ⬝ᵥ n - vg ⬝ᵥ n - a)) (h1 : l.l123 = k * (A.velo ⬝ᵥ n - vg ⬝ᵥ n))
    (h4 : l.l4 = k * (A.velo ⬝ᵥ n - vg ⬝ᵥ n + a)) :
    waveSum A a (A.velo ⬝ᵥ n) n l (waves gamma A a (A.velo ⬝ᵥ n) n (UR - UL)) =
      k • (physFlux gamma UR vg n - physFlux gamma UL vg n) := by
  have hg' : gamma - 1 ≠ 0 := sub_ne_zero.mpr hg
  rw [waves_jump h ha ha0 hA hv]
  refine Prod.ext ?_ (Prod.ext ?_ ?_)
  · show _ = k * _
    rw [h.fmass, h.mass]
    simp only [waveSum, h0, h1, h4]
    field_simp
    ring
  · show _ = k • _
    rw [h.mom]
    funext i
    simp only [waveSum, h0, h1, h4, Pi.add_apply, Pi.sub_apply, Pi.smul_apply, smul_eq_mul]
    field_simp
    ring
  · show _ = k * _
    rw [h.ene]
    simp only [waveSum, h0, h1, h4, sub_dotProduct, smul_dotProduct, smul_eq_mul, dotProduct_comm n A.velo, ← hv]
    have e := h.p
    rw [dotProduct_comm A.velo (UR - UL).2.1] at e
    rw [← ha] at hA
    have hH : A.H = a * a / (gamma - 1) + 1 / 2 * A.vsqr := by
      rw [hA]
      field_simp
      ring
    have hx : (UR - UL).2.1 ⬝ᵥ A.velo = (UR - UL).2.2 + 1 / 2 * A.vsqr * (UR - UL).1 - Dp / (gamma - 1) := by
      rw [← e]
      field_simp
      ring
    rw [hx, hH]
    field_simp
    ring

/-- **C57** (Roe's property) For two states with positive density and `γ > 1`, with Roe's averages and the signed eigenvalues `u - a`,
`u`, `u + a` relative to the face, the waves that the program sums add up to the difference of the Euler fluxes. -/
theorem roe_property (hg : 1 < gamma) {UL UR : St ℝ d} (vg n : Fin d → ℝ) (hL : Physical gamma UL) (hR : Physical gamma UR) (F0 : St ℝ d) :
    let A := roeAverage gamma UL UR
    let u := A.velo ⬝ᵥ n - vg ⬝ᵥ n
    roeIncF gamma (UR - UL) n A (√A.asqr) ⟨u - √A.asqr, u, u + √A.asqr⟩ F0 =
      F0 + (eulerFlux gamma vg n UR - eulerFlux gamma vg n UL) := by
  intro A u
  have hpos := roe_asqr_pos hg hL hR
  show F0 + _ = _
  rw [waveSum_jump (jump_roe vg n hL.rho hR.rho) (Real.mul_self_sqrt hpos.le) (Real.sqrt_pos.mpr hpos).ne' rfl rfl hg.ne' 1 _
    (one_mul _).symm (one_mul _).symm (one_mul _).symm, one_smul, physFlux_eq _ _ _ _ hL.rho.ne', physFlux_eq _ _ _ _ hR.rho.ne']

/-- what the three schemes that keep supersonic eigenvalues choose in supersonic flow -/
theorem roeLam_supersonic (scheme : Nat) (hs : scheme = 0 ∨ scheme = 3 ∨ scheme = 4) {speed u a uL uR aL aR dLambda : ℝ} (ha : 0 < a)
    (hth : scheme = 0 → max (5 / 100 * (speed + a)) dLambda ≤ |u| - a) (hu : a ≤ |u|) :
    roeLam scheme speed u a uL uR aL aR dLambda = ⟨|u - a|, |u|, |u + a|⟩ := by
  have h1 : |u| - a ≤ |u - a| := by
    have := abs_sub_abs_le_abs_sub u a
    rwa [abs_of_pos ha] at this
  have h2 : |u| - a ≤ |u + a| := by
    have := abs_sub_abs_le_abs_sub u (-a)
    rwa [abs_neg, abs_of_pos ha, sub_neg_eq_add] at this
  rcases hs with rfl | rfl | rfl
  · have h := hth rfl
    simp only [roeLam, if_true]
    rw [if_neg (by linarith), if_neg (by linarith)]
  · simp only [roeLam]
    rw [if_neg (by omega), if_neg (by omega), if_pos trivial]
    have : min (|u| / (2 / 10)) a = a := by
      refine min_eq_right ?_
      rw [le_div_iff₀ (by norm_num)]
      linarith
    rw [this]
  · simp only [roeLam]
    rw [if_neg (by omega), if_neg (by omega), if_neg (by omega), if_pos trivial]
    have hm : max (a * (2 / 10)) |u| = |u| := max_eq_right (by linarith)
    have hsm : a * small < a := by
      unfold small
      nlinarith
    have hsm0 : 0 ≤ a * small := mul_nonneg ha.le (by unfold small; positivity)
    have : signTol u (a * small) * |u| = u := by
      rcases le_or_gt 0 u with h | h
      · rw [abs_of_nonneg h] at hu ⊢
        rw [signTol, if_pos (by linarith), one_mul]
      · rw [abs_of_neg h] at hu ⊢
        rw [signTol, if_neg (by linarith), if_pos (by linarith)]
        ring
    rw [hm, this]

/-- **C57** (upwinding) The Roe solver with Harten's and Yee's entropy fix (`Roe`, away from the threshold of the fix) and its variants
`Roe_M3`, `Roe_M4` return the Euler flux of the left state when the averaged flow crosses the face to the right faster than sound, and
that of the right state when it crosses to the left faster than sound. -/
theorem roe_upwind (scheme : Nat) (hs : scheme = 0 ∨ scheme = 3 ∨ scheme = 4) (hg : 1 < gamma) {UL UR : St ℝ d} (vg n : Fin d → ℝ)
    (dLambda : ℝ) (hL : Physical gamma UL) (hR : Physical gamma UR)
    (hth : scheme = 0 → max (5 / 100 * (√(roeAverage gamma UL UR).vsqr + √(roeAverage gamma UL UR).asqr)) dLambda ≤
      |(roeAverage gamma UL UR).velo ⬝ᵥ n - vg ⬝ᵥ n| - √(roeAverage gamma UL UR).asqr)
    (hsup : √(roeAverage gamma UL UR).asqr ≤ |(roeAverage gamma UL UR).velo ⬝ᵥ n - vg ⬝ᵥ n|) :
    ∃ l, roeFlux scheme gamma UL UR UL UR vg n dLambda = .ok
      (if 0 ≤ (roeAverage gamma UL UR).velo ⬝ᵥ n - vg ⬝ᵥ n then eulerFlux gamma vg n UL else eulerFlux gamma vg n UR, l) := by
  have hpos := roe_asqr_pos hg hL hR
  have h0 : ¬ ¬ (0 < UL.c0 ∧ 0 < UR.c0) := not_not.mpr ⟨hL.rho, hR.rho⟩
  have ha := Real.sqrt_pos.mpr hpos
  refine ⟨roeSpeeds roeLam scheme gamma UL UR vg n dLambda, ?_⟩
  rw [roeFlux, if_neg h0, if_neg (not_not.mpr hpos), if_neg (by omega)]
  congr 2
  have hl : roeSpeeds roeLam scheme gamma UL UR vg n dLambda = ⟨|(roeAverage gamma UL UR).velo ⬝ᵥ n - vg ⬝ᵥ n -
      √(roeAverage gamma UL UR).asqr|, |(roeAverage gamma UL UR).velo ⬝ᵥ n - vg ⬝ᵥ n|,
      |(roeAverage gamma UL UR).velo ⬝ᵥ n - vg ⬝ᵥ n + √(roeAverage gamma UL UR).asqr|⟩ := by
    simp only [roeSpeeds]
    rw [if_neg (by omega)]
    exact roeLam_supersonic scheme hs ha hth hsup
  rw [hl, roeCombine, if_neg (by omega)]
  by_cases hu : 0 ≤ (roeAverage gamma UL UR).velo ⬝ᵥ n - vg ⬝ᵥ n
  · rw [if_pos hu]
    rw [abs_of_nonneg hu] at hsup
    rw [waveSum_jump (jump_roe vg n hL.rho hR.rho) (Real.mul_self_sqrt hpos.le) ha.ne' rfl rfl hg.ne' 1 _
      ((abs_of_nonneg (by linarith)).trans (one_mul _).symm) ((abs_of_nonneg hu).trans (one_mul _).symm)
      ((abs_of_nonneg (by linarith)).trans (one_mul _).symm), physFlux_eq _ _ _ _ hL.rho.ne', physFlux_eq _ _ _ _ hR.rho.ne']
    module
  · rw [if_neg hu]
    rw [not_le] at hu
    rw [abs_of_neg hu] at hsup
    rw [waveSum_jump (jump_roe vg n hL.rho hR.rho) (Real.mul_self_sqrt hpos.le) ha.ne' rfl rfl hg.ne' (-1) _
      ((abs_of_nonpos (by linarith)).trans (neg_one_mul _).symm) ((abs_of_neg hu).trans (neg_one_mul _).symm)
      ((abs_of_nonpos (by linarith)).trans (neg_one_mul _).symm), physFlux_eq _ _ _ _ hL.rho.ne', physFlux_eq _ _ _ _ hR.rho.ne']
    module

end Property

section Mirror

theorem physFlux_neg (U : St ℝ d) (vg n : Fin d → ℝ) : physFlux gamma U vg (-n) = -physFlux gamma U vg n := by
  refine Prod.ext ?_ (Prod.ext ?_ ?_)
  · simp only [physFlux, fluxXY, St.c0, dotProduct_neg, Prod.smul_fst, Prod.fst_neg, smul_eq_mul]
    ring
  · funext i
    simp only [physFlux, fluxXY, St.cv, dotProduct_neg, Prod.smul_fst, Prod.smul_snd, Prod.snd_neg, Prod.fst_neg, Pi.add_apply, Pi.smul_apply,
      Pi.neg_apply, smul_eq_mul]
    ring
  · simp only [physFlux, fluxXY, St.c4, dotProduct_neg, Prod.smul_snd, Prod.snd_neg, smul_eq_mul]
    ring

theorem roeAverage_comm (UL UR : St ℝ d) : roeAverage gamma UR UL = roeAverage gamma UL UR := by
  simp only [roeAverage, add_comm √UR.c0, mul_comm √UR.c0 √UL.c0, add_comm (√UR.c0 • (side gamma UR).velo),
    add_comm (√UR.c0 * (side gamma UR).H)]

theorem signTol_neg {x tol : ℝ} (ht : 0 ≤ tol) : signTol (-x) tol = -signTol x tol := by
  unfold signTol
  by_cases h1 : x > tol
  · rw [if_pos h1, if_neg (by linarith), if_pos (by linarith)]
  · rw [if_neg h1]
    by_cases h2 : x < -tol
    · rw [if_pos h2, if_pos (by linarith), neg_neg]
    · rw [if_neg h2, if_neg (by linarith), if_neg (by linarith), neg_zero]

/-- swap the outer wave speeds -/
def Lam.swap (l : Lam) : Lam := ⟨l.l4, l.l123, l.l0⟩

theorem abs_neg_sub_add (x y : ℝ) : |-x - y| = |x + y| := by rw [← abs_neg]; congr 1; ring
theorem abs_neg_add_sub (x y : ℝ) : |-x + y| = |x - y| := by rw [← abs_neg]; congr 1; ring

theorem roeLam_mirror (scheme : Nat) {speed u a uL uR aL aR dLambda : ℝ} (ha : 0 ≤ a) (hL : 0 ≤ aL) (hR : 0 ≤ aR) :
    roeLam scheme speed (-u) a (-uR) (-uL) aR aL dLambda = (roeLam scheme speed u a uL uR aL aR dLambda).swap := by
  have hsm : 0 ≤ small := by unfold small; positivity
  unfold roeLam Lam.swap
  by_cases h0 : scheme = 0
  · simp only [if_pos h0, abs_neg_sub_add, abs_neg_add_sub, abs_neg]
  by_cases h1 : scheme = 1
  · simp only [if_neg h0, if_pos h1, signTol_neg (mul_nonneg hL hsm), signTol_neg (mul_nonneg hR hsm), abs_neg, neg_mul, abs_neg_sub_add,
      abs_neg_add_sub]
    rw [max_comm, max_comm (|signTol uR _ * _|), max_comm (|signTol uR _ * _ - aR|)]
  by_cases h3 : scheme = 3
  · simp only [if_neg h0, if_neg h1, if_pos h3, abs_neg_sub_add, abs_neg_add_sub, abs_neg]
  by_cases h4 : scheme = 4
  · simp only [if_neg h0, if_neg h1, if_neg h3, if_pos h4, signTol_neg (mul_nonneg ha hsm), abs_neg, neg_mul, abs_neg_sub_add, abs_neg_add_sub]
  · simp only [if_neg h0, if_neg h1, if_neg h3, if_neg h4, abs_neg_sub_add, abs_neg_add_sub, abs_neg]
    rw [max_comm, max_comm |uR|, max_comm (|uR - _|)]

theorem roeSpeeds_mirror (scheme : Nat) (ULm URm : St ℝ d) (vg n : Fin d → ℝ) (dLambda : ℝ) :
    roeSpeeds roeLam scheme gamma URm ULm vg (-n) dLambda = (roeSpeeds roeLam scheme gamma ULm URm vg n dLambda).swap := by
  simp only [roeSpeeds, roeAverage_comm ULm URm, dotProduct_neg]
  by_cases h2 : scheme = 2
  · simp only [if_pos h2, Lam.swap, abs_neg]
    rw [max_comm]
  · rw [if_neg h2, if_neg h2, ← roeLam_mirror scheme (Real.sqrt_nonneg _) (Real.sqrt_nonneg _) (Real.sqrt_nonneg _)]
    congr 1
    ring

theorem waves_mirror (A : Avg d) {a : ℝ} (ha : a ≠ 0) (n : Fin d → ℝ) (inc : St ℝ d) :
    waves gamma A a (A.velo ⬝ᵥ -n) (-n) (-inc) =
      ⟨-(waves gamma A a (A.velo ⬝ᵥ n) n inc).a4, -(waves gamma A a (A.velo ⬝ᵥ n) n inc).a1, -(waves gamma A a (A.velo ⬝ᵥ n) n inc).aT,
        -(waves gamma A a (A.velo ⬝ᵥ n) n inc).a0⟩ := by
  have hT : (waves gamma A a (A.velo ⬝ᵥ -n) (-n) (-inc)).aT = -(waves gamma A a (A.velo ⬝ᵥ n) n inc).aT := by
    simp only [waves, St.c0, St.cv, Prod.fst_neg, Prod.snd_neg, dotProduct_neg, sub_dotProduct, smul_dotProduct, neg_dotProduct, neg_smul,
      smul_eq_mul]
    funext i
    simp only [Pi.sub_apply, Pi.neg_apply, Pi.smul_apply, smul_eq_mul]
    ring
  have h1 : (waves gamma A a (A.velo ⬝ᵥ -n) (-n) (-inc)).a1 = -(waves gamma A a (A.velo ⬝ᵥ n) n inc).a1 := by
    have e : ∀ m j, (waves gamma A a (A.velo ⬝ᵥ m) m j).a1 = (gamma - 1) / A.asqr * (j.1 * (A.H - (A.velo ⬝ᵥ m) * (A.velo ⬝ᵥ m)) +
      (A.velo ⬝ᵥ m) * (j.2.1 ⬝ᵥ m) - (j.2.2 - (waves gamma A a (A.velo ⬝ᵥ m) m j).aT ⬝ᵥ A.velo)) := fun m j => rfl
    rw [e, e, hT]
    simp only [Prod.fst_neg, Prod.snd_neg, dotProduct_neg, neg_dotProduct]
    ring
  have e0 : ∀ m j, (waves gamma A a (A.velo ⬝ᵥ m) m j).a0 = (j.1 * (A.velo ⬝ᵥ m + a) - j.2.1 ⬝ᵥ m -
      a * (waves gamma A a (A.velo ⬝ᵥ m) m j).a1) / (2 * a) := fun m j => rfl
  have e4 : ∀ m j, (waves gamma A a (A.velo ⬝ᵥ m) m j).a4 = j.1 - ((waves gamma A a (A.velo ⬝ᵥ m) m j).a0 +
      (waves gamma A a (A.velo ⬝ᵥ m) m j).a1) := fun m j => rfl
  have h0 : (waves gamma A a (A.velo ⬝ᵥ -n) (-n) (-inc)).a0 = -(waves gamma A a (A.velo ⬝ᵥ n) n inc).a4 := by
    rw [e4, e0, e0, h1]
    simp only [Prod.fst_neg, Prod.snd_neg, dotProduct_neg, neg_dotProduct]
    field_simp
    ring
  have h4 : (waves gamma A a (A.velo ⬝ᵥ -n) (-n) (-inc)).a4 = -(waves gamma A a (A.velo ⬝ᵥ n) n inc).a0 := by
    rw [e4, h0, h1, e4]
    simp only [Prod.fst_neg]
    ring
  rw [← hT, ← h0, ← h1, ← h4]

theorem waveSum_mirror (A : Avg d) {a : ℝ} (ha : a ≠ 0) (n : Fin d → ℝ) (l : Lam) (inc : St ℝ d) :
    waveSum A a (A.velo ⬝ᵥ -n) (-n) l.swap (waves gamma A a (A.velo ⬝ᵥ -n) (-n) (-inc)) =
      -waveSum A a (A.velo ⬝ᵥ n) n l (waves gamma A a (A.velo ⬝ᵥ n) n inc) := by
  rw [waves_mirror A ha]
  generalize waves gamma A a (A.velo ⬝ᵥ n) n inc = w
  refine Prod.ext ?_ (Prod.ext ?_ ?_)
  · simp only [waveSum, Lam.swap, Prod.fst_neg]
    ring
  · simp only [waveSum, Lam.swap, Prod.fst_neg, Prod.snd_neg]
    module
  · simp only [waveSum, Lam.swap, Prod.snd_neg, dotProduct_neg, smul_neg, neg_dotProduct]
    ring

/-- **C58** (mirror symmetry, Roe solvers) Exchanging the two sides and reversing the normal reverses the flux, and exchanges the
outer wave speeds; the program aborts in the one case exactly when it aborts in the other. -/
theorem roe_mirror (scheme : Nat) (UL UR ULm URm : St ℝ d) (vg n : Fin d → ℝ) (dLambda : ℝ) :
    roeFlux scheme gamma UR UL URm ULm vg (-n) dLambda =
      (roeFlux scheme gamma UL UR ULm URm vg n dLambda >>= fun r => .ok (-r.1, ⟨r.2.l4, r.2.l123, r.2.l0⟩)) := by
  by_cases h0 : 0 < UL.c0 ∧ 0 < UR.c0
  swap
  · rw [roeFlux, roeFlux, if_pos (by tauto), if_pos h0]
    rfl
  by_cases h1 : 0 < (roeAverage gamma ULm URm).asqr
  swap
  · simp only [roeFlux, roeAverage_comm ULm URm, h0.1, h0.2, h1, and_self, not_true, not_false_iff, if_true, if_false]
    rfl
  by_cases h2 : 5 < scheme
  · simp only [roeFlux, roeAverage_comm ULm URm, h0.1, h0.2, h1, h2, and_self, not_true, if_true, if_false]
    rfl
  simp only [roeFlux, roeAverage_comm ULm URm, h0.1, h0.2, h1, h2, and_self, not_true, if_false, roeSpeeds_mirror]
  refine congrArg Res.ok (Prod.ext ?_ rfl)
  have ha := (Real.sqrt_pos.mpr h1).ne'
  simp only [roeCombine, physFlux_neg]
  by_cases h3 : scheme = 2
  · simp only [if_pos h3]
    have : ∀ l : Lam, scheme = 2 → (roeSpeeds roeLam scheme gamma ULm URm vg n dLambda).swap.l0 =
        (roeSpeeds roeLam scheme gamma ULm URm vg n dLambda).l0 := fun l _ => by
      simp only [roeSpeeds, if_pos h3, Lam.swap]
    rw [this ⟨0, 0, 0⟩ h3]
    module
  · simp only [if_neg h3]
    rw [← neg_sub UR UL, waveSum_mirror _ ha]
    module

end Mirror

section Batch

/-- **C59** (batches) For every scheme but `Roe_M1`, on a flat face with one mesh velocity, the batched Roe solver returns at each
point what the single-point solver returns there, and aborts if that aborts at some point. -/
theorem batch_agrees_partial (scheme : Nat) (hs : scheme ≠ 1) (pts : List (Pt d)) (hne : pts ≠ []) (ULm URm : St ℝ d) (vg n : Fin d → ℝ)
    (dLambda : ℝ) (hpts : ∀ q ∈ pts, q.vg = vg ∧ q.n = n) :
    (∀ Fs l, roeFluxBatch scheme gamma pts ULm URm vg n dLambda = .ok (Fs, l) →
      Fs.length = pts.length ∧ ∀ (i : Nat) (q : Pt d), pts[i]? = some q → ∃ F, Fs[i]? = some F ∧ roeFlux scheme gamma q.UL q.UR ULm URm vg n dLambda = .ok (F, l)) ∧
    (roeFluxBatch scheme gamma pts ULm URm vg n dLambda = .abort ↔
      ∃ q ∈ pts, roeFlux scheme gamma q.UL q.UR ULm URm vg n dLambda = .abort) := by
  classical
  have hlam : roeSpeeds (d := d) roeLamBatch scheme gamma ULm URm vg n dLambda = roeSpeeds roeLam scheme gamma ULm URm vg n dLambda := by
    simp only [roeSpeeds, roeLamBatch, if_neg hs]
  obtain ⟨q0, hq0⟩ := List.exists_mem_of_ne_nil pts hne
  by_cases h0 : ∀ q ∈ pts, 0 < q.UL.c0 ∧ 0 < q.UR.c0
  swap
  · have e : roeFluxBatch scheme gamma pts ULm URm vg n dLambda = .abort := by
      rw [roeFluxBatch, if_pos h0]
    refine ⟨fun Fs l h => by rw [e] at h; exact absurd h (by simp), fun _ => ?_, fun _ => e⟩
    push Not at h0
    obtain ⟨q, hq, hqn⟩ := h0
    exact ⟨q, hq, by rw [roeFlux, if_pos (by rintro ⟨a, b⟩; exact absurd b (not_lt.mpr (hqn a)))]⟩
  by_cases h1 : 0 < (roeAverage gamma ULm URm).asqr
  swap
  · have e : roeFluxBatch scheme gamma pts ULm URm vg n dLambda = .abort := by
      rw [roeFluxBatch, if_neg (not_not.mpr h0), if_pos h1]
    refine ⟨fun Fs l h => by rw [e] at h; exact absurd h (by simp), fun _ => ?_, fun _ => e⟩
    exact ⟨q0, hq0, by rw [roeFlux, if_neg (not_not.mpr (h0 q0 hq0)), if_pos h1]⟩
  by_cases h2 : 5 < scheme
  · have e : roeFluxBatch scheme gamma pts ULm URm vg n dLambda = .abort := by
      rw [roeFluxBatch, if_neg (not_not.mpr h0), if_neg (not_not.mpr h1), if_pos h2]
    refine ⟨fun Fs l h => by rw [e] at h; exact absurd h (by simp), fun _ => ?_, fun _ => e⟩
    exact ⟨q0, hq0, by rw [roeFlux, if_neg (not_not.mpr (h0 q0 hq0)), if_neg (not_not.mpr h1), if_pos h2]⟩
  have e : ∀ q ∈ pts, roeFlux scheme gamma q.UL q.UR ULm URm vg n dLambda = .ok (roeCombine scheme gamma q.UL q.UR vg n
      (roeAverage gamma ULm URm) ((roeAverage gamma ULm URm).velo ⬝ᵥ n) (roeSpeeds roeLam scheme gamma ULm URm vg n dLambda),
      roeSpeeds roeLam scheme gamma ULm URm vg n dLambda) := fun q hq => by
    rw [roeFlux, if_neg (not_not.mpr (h0 q hq)), if_neg (not_not.mpr h1), if_neg h2]
  have eb : roeFluxBatch scheme gamma pts ULm URm vg n dLambda = .ok (pts.map fun q => roeCombine scheme gamma q.UL q.UR q.vg q.n
      (roeAverage gamma ULm URm) ((roeAverage gamma ULm URm).velo ⬝ᵥ n) (roeSpeeds roeLam scheme gamma ULm URm vg n dLambda),
      roeSpeeds roeLam scheme gamma ULm URm vg n dLambda) := by
    rw [roeFluxBatch, if_neg (not_not.mpr h0), if_neg (not_not.mpr h1), if_neg h2, hlam]
  refine ⟨fun Fs l h => ?_, fun h => by rw [eb] at h; exact absurd h (by simp), ?_⟩
  · rw [eb] at h
    have h' := Res.ok.inj h
    obtain ⟨rfl, rfl⟩ := Prod.mk.inj h'
    refine ⟨List.length_map _, fun i q hq => ?_⟩
    have hm := List.mem_of_getElem? hq
    refine ⟨_, by rw [List.getElem?_map, hq]; rfl, ?_⟩
    rw [e q hm]
    simp only [(hpts q hm).1, (hpts q hm).2]
  · rintro ⟨q, hq, h⟩
    rw [e q hq] at h
    exact absurd h (by simp)

end Batch

section Counter

/-- air that crosses the face `![1, 0]` to the left at speed 2, with sound speed 0.95 and transverse velocity `t` -/
noncomputable def fast (t : ℝ) : St ℝ 2 := (1, ![-2, t], 361 / 224 + 1 / 2 * (4 + t * t))

theorem fast_velo (t : ℝ) : (side (7 / 5) (fast t)).velo = ![-2, t] := by
  funext i
  fin_cases i <;> simp [side, fast, St.c0, St.cv]

theorem fast_p (t : ℝ) : (side (7 / 5) (fast t)).p = 361 / 560 := by
  simp only [side, fast, St.c0, St.cv, St.c4, thermal, dotProduct, Fin.sum_univ_two, Pi.smul_apply, smul_eq_mul, Matrix.cons_val_zero,
    Matrix.cons_val_one]
  ring

theorem fast_asqr (t : ℝ) : (side (7 / 5) (fast t)).asqr = (95 / 100) ^ 2 := by
  rw [side_asqr, fast_p]
  norm_num [fast]

theorem fast_H (t : ℝ) : (side (7 / 5) (fast t)).H = 361 / 160 + 1 / 2 * (4 + t * t) := by
  simp only [side, fast, St.c0, St.cv, St.c4, thermal, dotProduct, Fin.sum_univ_two, Pi.smul_apply, smul_eq_mul, Matrix.cons_val_zero,
    Matrix.cons_val_one]
  ring

theorem fast_physical (t : ℝ) : Physical (7 / 5) (fast t) := by
  have h : 0 < (fast t).1 := by norm_num [fast]
  refine ⟨h, ?_⟩
  rw [← side_p h.ne', fast_p]
  norm_num

theorem fast_cv (t : ℝ) : (fast t).2.1 = ![-2, t] := rfl

theorem sqrt_one_c0 (t : ℝ) : √(fast t).c0 = 1 := by simp [fast, St.c0]

theorem fast_avg_velo : (roeAverage (7 / 5) (fast 0) (fast 2)).velo = ![-2, 1] := by
  simp only [roeAverage, fast_velo, sqrt_one_c0]
  funext i
  fin_cases i <;> norm_num

theorem fast_avg_asqr : (roeAverage (7 / 5) (fast 0) (fast 2)).asqr = (105 / 100) ^ 2 := by
  have e : (roeAverage (7 / 5) (fast 0) (fast 2)).asqr = (7 / 5 - 1) * ((1 * (side (7 / 5) (fast 0)).H + 1 * (side (7 / 5) (fast 2)).H) / (1 + 1) -
      1 / 2 * ((roeAverage (7 / 5) (fast 0) (fast 2)).velo ⬝ᵥ (roeAverage (7 / 5) (fast 0) (fast 2)).velo)) := by
    simp only [roeAverage, sqrt_one_c0]
  rw [e, fast_H, fast_H, fast_avg_velo]
  norm_num [dotProduct, Fin.sum_univ_two]

theorem fast_sqrt (t : ℝ) : √(side (7 / 5) (fast t)).asqr = 95 / 100 := by
  rw [fast_asqr, Real.sqrt_sq (by norm_num)]

theorem fast_avg_sqrt : √(roeAverage (7 / 5) (fast 0) (fast 2)).asqr = 105 / 100 := by
  rw [fast_avg_asqr, Real.sqrt_sq (by norm_num)]

/-- **C58 is false for HLLEP**: two states that cross the face to the left faster than sound and differ by a shear.  Seen from the
other side the solver returns (up to its guard against division by zero) the flux of the upwind state; seen from this side it returns
something else, because its wave speed estimates use the absolute values `|u - a|`, `|u + a|`. -/
theorem hllep_mirror_wrong :
    ∃ F l F' l', flux .hllep (7 / 5) (fast 0) (fast 2) (fast 0) (fast 2) 0 ![1, 0] 0 = .ok (F, l) ∧
      flux .hllep (7 / 5) (fast 2) (fast 0) (fast 2) (fast 0) 0 (-![1, 0]) 0 = .ok (F', l') ∧
      F.2.1 1 < -(44 / 10) ∧ -(4 : ℝ) ≤ -F'.2.1 1 := by
  have h0 : ¬ ¬ (0 < (fast 0).c0 ∧ 0 < (fast 2).c0) := not_not.mpr ⟨(fast_physical 0).rho, (fast_physical 2).rho⟩
  have h0' : ¬ ¬ (0 < (fast 2).c0 ∧ 0 < (fast 0).c0) := not_not.mpr ⟨(fast_physical 2).rho, (fast_physical 0).rho⟩
  have h1 : ¬ ¬ 0 < (roeAverage (7 / 5) (fast 0) (fast 2)).asqr := not_not.mpr (by rw [fast_avg_asqr]; norm_num)
  refine ⟨(hllepCombine false (7 / 5) (fast 0) (fast 2) (fast 0) (fast 2) 0 ![1, 0]).1, _,
    (hllepCombine false (7 / 5) (fast 2) (fast 0) (fast 2) (fast 0) 0 (-![1, 0])).1, _, (if_neg h0).trans (if_neg h1),
    (if_neg h0').trans ((if_neg (by rw [roeAverage_comm (fast 0) (fast 2)]; exact h1)).trans rfl), ?_, ?_⟩
  all_goals
    have hv : 0 < verySmall ∧ verySmall < 1 / 1000 := by constructor <;> norm_num [verySmall]
    have ha1 : ∀ n : Fin 2 → ℝ, (n = ![1, 0] ∨ n = -![1, 0]) → ∀ (s : ℝ) (A : Avg 2), A.velo = ![-2, 1] →
        (waves (7 / 5) A (105 / 100) (![-2, 1] ⬝ᵥ n) n (s • (fast 2 - fast 0))).a1 = 0 := by
      rintro n (rfl | rfl) s A hA <;>
      simp only [waves, St.c0, St.cv, St.c4, fast, Prod.smul_fst, Prod.smul_snd, Prod.fst_sub, Prod.snd_sub, hA, dotProduct,
        Fin.sum_univ_two, Pi.smul_apply, Pi.sub_apply, Pi.neg_apply, smul_eq_mul, Matrix.cons_val_zero, Matrix.cons_val_one] <;>
      ring
  · have hw := ha1 ![1, 0] (Or.inl rfl) 1 _ fast_avg_velo
    rw [one_smul] at hw
    have e1 : (![-2, 1] : Fin 2 → ℝ) ⬝ᵥ ![1, 0] - 0 ⬝ᵥ ![1, 0] = -2 := by norm_num [dotProduct, Fin.sum_univ_two]
    have e2 : ∀ t : ℝ, ((![-2, t] : Fin 2 → ℝ) - 0) ⬝ᵥ ![1, 0] = -2 := fun t => by norm_num [dotProduct, Fin.sum_univ_two]
    have e3 : ∀ t : ℝ, (physFlux (7 / 5) (fast t) 0 ![1, 0]).2.1 1 = -2 * t := fun t => by
      simp [physFlux, fluxXY, fast_velo, dotProduct, Fin.sum_univ_two, fast_cv, St.cv]
    simp only [hllepCombine, if_true, fast_sqrt, fast_avg_sqrt, fast_velo, fast_avg_velo, hw, e1, e2, Prod.snd_add, Prod.fst_add, Prod.smul_snd,
      Prod.smul_fst, Prod.snd_sub, Prod.fst_sub, Pi.add_apply, Pi.sub_apply, Pi.smul_apply, smul_eq_mul, e3, fast_cv]
    have q1 : |(-2 : ℝ) + 105 / 100| = 95 / 100 := by rw [abs_of_neg] <;> norm_num
    have q2 : |(-2 : ℝ) - 105 / 100| = 305 / 100 := by rw [abs_of_neg] <;> norm_num
    have q3 : max (max (95 / 100 : ℝ) (-2 + 95 / 100)) 0 = 95 / 100 := by norm_num
    have q4 : min (min (305 / 100 : ℝ) (-2 - 95 / 100)) 0 = -(295 / 100) := by norm_num
    rw [q1, q2, q3, q4, signP, if_pos (by norm_num)]
    have hd : 0 < 95 / 100 - -(295 / 100) + 1 * verySmall := by linarith [hv.1]
    obtain ⟨D, hD⟩ : ∃ D, D = 95 / 100 - -(295 / 100) + 1 * verySmall := ⟨_, rfl⟩
    rw [← hD] at hd ⊢
    simp only [Matrix.cons_val_one, Matrix.cons_val_zero, mul_zero, zero_mul, sub_zero, zero_sub]
    rw [← div_eq_inv_mul, div_mul_eq_mul_div (95 / 100 * -(295 / 100) : ℝ), ← add_div, div_lt_iff₀ hd, hD]
    linarith [hv.2]
  · have hw := ha1 (-![1, 0]) (Or.inr rfl) (-1) _ fast_avg_velo
    rw [neg_one_smul, neg_sub] at hw
    have e1 : (![-2, 1] : Fin 2 → ℝ) ⬝ᵥ -![1, 0] - 0 ⬝ᵥ -![1, 0] = 2 := by norm_num [dotProduct, Fin.sum_univ_two]
    have e2 : ∀ t : ℝ, ((![-2, t] : Fin 2 → ℝ) - 0) ⬝ᵥ -![1, 0] = 2 := fun t => by norm_num [dotProduct, Fin.sum_univ_two]
    have e3 : ∀ t : ℝ, (physFlux (7 / 5) (fast t) 0 (-![1, 0])).2.1 1 = 2 * t := fun t => by
      simp [physFlux, fluxXY, fast_velo, dotProduct, Fin.sum_univ_two, fast_cv, St.cv]
    simp only [hllepCombine, if_true, fast_sqrt, roeAverage_comm (fast 0) (fast 2), fast_avg_sqrt, fast_velo, fast_avg_velo, hw, e1, e2, Prod.snd_add, Prod.fst_add,
      Prod.smul_snd, Prod.smul_fst, Prod.snd_sub, Prod.fst_sub, Pi.add_apply, Pi.sub_apply, Pi.smul_apply, smul_eq_mul, e3, fast_cv]
    have q1 : |(2 : ℝ) - 105 / 100| = 95 / 100 := by rw [abs_of_pos] <;> norm_num
    have q2 : |(2 : ℝ) + 105 / 100| = 305 / 100 := by rw [abs_of_pos] <;> norm_num
    have q3 : max (max (305 / 100 : ℝ) (2 + 95 / 100)) 0 = 305 / 100 := by norm_num
    have q4 : min (min (95 / 100 : ℝ) (2 - 95 / 100)) 0 = 0 := by norm_num
    rw [q1, q2, q3, q4, signP, if_pos (by norm_num)]
    have hd : 0 < 305 / 100 - 0 + 1 * verySmall := by linarith [hv.1]
    simp only [Matrix.cons_val_one, mul_zero, zero_div, zero_mul, add_zero, sub_zero] at hd ⊢
    rw [← div_eq_inv_mul, neg_le_neg_iff, div_le_iff₀ hd]
    norm_num
    linarith [hv.1]

/-- **C59 is false for `Roe_M1`**: for one and the same state on both sides of the face, the batched solver leaves the flow speed as
middle wave speed, the single-point solver replaces it by a fifth of the sound speed. -/
theorem batch_m1_wrong :
    let U : St ℝ 1 := (1, ![1 / 10], 25 / 14 + 1 / 200)
    ∃ F Fs l l', roeFlux 1 (7 / 5) U U U U 0 ![1] 0 = .ok (F, l) ∧ roeFluxBatch 1 (7 / 5) [⟨U, U, 0, ![1]⟩] U U 0 ![1] 0 = .ok (Fs, l') ∧
      l.l123 = 1 / 5 ∧ l'.l123 = 1 / 10 := by
  intro U
  have hU : 0 < U.1 := by norm_num [U]
  have hg : (1 : ℝ) < 7 / 5 := by norm_num
  have hv : (side (7 / 5) U).velo = ![1 / 10] := by
    funext i
    fin_cases i
    simp [side, U, St.c0, St.cv]
  have hp : (side (7 / 5) U).p = 5 / 7 := by
    simp only [side, U, St.c0, St.cv, St.c4, thermal, dotProduct, Fin.sum_univ_one, Pi.smul_apply, smul_eq_mul, Matrix.cons_val_zero]
    norm_num
  have ha : (side (7 / 5) U).asqr = 1 := by
    rw [side_asqr, hp]
    norm_num [U]
  have hphys : Physical (7 / 5) U := ⟨hU, by rw [← side_p hU.ne', hp]; norm_num⟩
  have h1 := roe_asqr_pos hg hphys hphys
  have h0 : ¬ ¬ (0 < U.c0 ∧ 0 < U.c0) := not_not.mpr ⟨hU, hU⟩
  have hd : ((![1 / 10] : Fin 1 → ℝ) - 0) ⬝ᵥ ![1] = 1 / 10 := by simp [dotProduct]
  refine ⟨_, _, roeSpeeds roeLam 1 (7 / 5) U U 0 ![1] 0, roeSpeeds roeLamBatch 1 (7 / 5) U U 0 ![1] 0,
    (if_neg h0).trans ((if_neg (not_not.mpr h1)).trans (if_neg (by norm_num))),
    (if_neg (not_not.mpr (fun q hq => by rw [List.mem_singleton.mp hq]; exact ⟨hU, hU⟩))).trans ((if_neg (not_not.mpr h1)).trans (if_neg (by norm_num))), ?_, ?_⟩
  · simp only [roeSpeeds, roeLam, hv, ha, hd, Real.sqrt_one]
    norm_num [signTol, small, abs_of_pos]
  · simp only [roeSpeeds, roeLamBatch, hv, ha, hd, Real.sqrt_one]
    norm_num [abs_of_pos]

/-- non-vacuity of `roe_property`, `roe_upwind`: two states that differ by a shear and cross the face to the left at about twice
the speed of sound. -/
example : (1 : ℝ) < 7 / 5 ∧ Physical (7 / 5) (fast 0) ∧ Physical (7 / 5) (fast 2) ∧
    √(roeAverage (7 / 5) (fast 0) (fast 2)).asqr ≤ |(roeAverage (7 / 5) (fast 0) (fast 2)).velo ⬝ᵥ ![1, 0] - (0 : Fin 2 → ℝ) ⬝ᵥ ![1, 0]| ∧
    max (5 / 100 * (√(roeAverage (7 / 5) (fast 0) (fast 2)).vsqr + √(roeAverage (7 / 5) (fast 0) (fast 2)).asqr)) 0 ≤
      |(roeAverage (7 / 5) (fast 0) (fast 2)).velo ⬝ᵥ ![1, 0] - (0 : Fin 2 → ℝ) ⬝ᵥ ![1, 0]| - √(roeAverage (7 / 5) (fast 0) (fast 2)).asqr := by
  have e : |(roeAverage (7 / 5) (fast 0) (fast 2)).velo ⬝ᵥ ![1, 0] - (0 : Fin 2 → ℝ) ⬝ᵥ ![1, 0]| = 2 := by
    rw [fast_avg_velo]
    norm_num [dotProduct, Fin.sum_univ_two]
  have e2 : √(roeAverage (7 / 5) (fast 0) (fast 2)).vsqr ≤ 3 := by
    rw [show (roeAverage (7 / 5) (fast 0) (fast 2)).vsqr = (roeAverage (7 / 5) (fast 0) (fast 2)).velo ⬝ᵥ
      (roeAverage (7 / 5) (fast 0) (fast 2)).velo from rfl, fast_avg_velo, Real.sqrt_le_left (by norm_num)]
    norm_num [dotProduct, Fin.sum_univ_two]
  refine ⟨by norm_num, fast_physical 0, fast_physical 2, ?_, ?_⟩
  · rw [e, fast_avg_sqrt]
    norm_num
  · rw [e, fast_avg_sqrt]
    refine max_le ?_ (by norm_num)
    linarith

end Counter

end DNDSR.Gas

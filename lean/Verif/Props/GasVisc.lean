import Verif.Model.GasVisc
import Verif.Spec.Gas
import Mathlib.Tactic.FieldSimp
import Mathlib.Tactic.Ring
import Mathlib.Tactic.LinearCombination
import Mathlib.Tactic.Linarith
import Mathlib.Tactic.Positivity
import Mathlib.Tactic.NormNum
import Mathlib.Tactic.FinCases
import Mathlib.Tactic.IntervalCases
import Mathlib.Algebra.BigOperators.Field
import Mathlib.Algebra.Order.BigOperators.Ring.Finset
import Mathlib.Algebra.Order.Chebyshev
import Mathlib.Analysis.Calculus.Deriv.Inv
import Mathlib.Analysis.Calculus.Deriv.Mul

/-!
# What the viscous flux is (C60)
-/

namespace DNDSR.Gas

variable {d : Nat}

theorem stress0_symm (G : Fin d → Fin d → ℝ) (mu : ℝ) (i j : Fin d) : viscStress0 G mu i j = viscStress0 G mu j i := by
  simp only [viscStress0, eq_comm (a := i), add_comm (G i j)]

theorem stress_symm (G : Fin d → Fin d → ℝ) (mu mutRatio : ℝ) (qcr : Bool) (i j : Fin d) :
    viscStress G mu mutRatio qcr i j = viscStress G mu mutRatio qcr j i := by
  simp only [viscStress]
  rw [stress0_symm G mu i j, add_comm (qcrFix _ _ i j)]

theorem viscRot_anti (G : Fin d → Fin d → ℝ) (i j : Fin d) : viscRot G i j = -viscRot G j i := by
  simp only [viscRot, ← neg_div, neg_sub]

/-- **C60** (traction) The viscous flux carries no mass, its momentum flux is linear in the normal and symmetric: the force on one face
along the normal of another equals that on the other along the normal of the first. -/
theorem visc_reciprocal (U : St ℝ d) (G : Fin d → Fin d → ℝ) (gr gp n n' : Fin d → ℝ) (ad : Bool) (gamma mu mr : ℝ) (qcr : Bool) (k Cp : ℝ) :
    (viscousFlux U G gr gp n ad gamma mu mr qcr k Cp).1 = 0 ∧
    ∑ i, (viscousFlux U G gr gp n ad gamma mu mr qcr k Cp).2.1 i * n' i =
      ∑ i, (viscousFlux U G gr gp n' ad gamma mu mr qcr k Cp).2.1 i * n i := by
  refine ⟨rfl, ?_⟩
  simp only [viscousFlux, Finset.sum_mul]
  rw [Finset.sum_comm]
  refine Finset.sum_congr rfl fun i _ => Finset.sum_congr rfl fun j _ => ?_
  rw [stress_symm]
  ring

theorem work_eq (U : St ℝ d) (G : Fin d → Fin d → ℝ) (gr gp n : Fin d → ℝ) (ad : Bool) (gamma mu mr : ℝ) (qcr : Bool) (k Cp : ℝ) :
    (viscousFlux U G gr gp n ad gamma mu mr qcr k Cp).2.2 =
      ∑ i, U.2.1 i / U.1 * (viscousFlux U G gr gp n ad gamma mu mr qcr k Cp).2.1 i + k * (viscGradT U gr gp n ad gamma Cp ⬝ᵥ n) := by
  simp only [viscousFlux, dotProduct, Finset.mul_sum, add_mul, Finset.sum_add_distrib, Finset.sum_mul]
  congr 1
  · rw [Finset.sum_comm]
    refine Finset.sum_congr rfl fun i _ => Finset.sum_congr rfl fun j _ => ?_
    rw [stress_symm]
    simp only [Pi.smul_apply, smul_eq_mul, St.c0, St.cv]
    ring
  · refine Finset.sum_congr rfl fun i _ => ?_
    ring

/-- **C60** (adiabatic wall) With the adiabatic flag and a unit normal, the energy flux is the work of the viscous traction at the
velocity of the gas: no heat is conducted. -/
theorem visc_adiabatic (U : St ℝ d) (G : Fin d → Fin d → ℝ) (gr gp n : Fin d → ℝ) (hn : ∑ i, n i * n i = 1) (gamma mu mr : ℝ) (qcr : Bool)
    (k Cp : ℝ) :
    (viscousFlux U G gr gp n true gamma mu mr qcr k Cp).2.2 =
      ∑ i, U.2.1 i / U.1 * (viscousFlux U G gr gp n true gamma mu mr qcr k Cp).2.1 i := by
  rw [work_eq]
  have hn' : n ⬝ᵥ n = 1 := hn
  simp only [viscGradT, if_true, sub_dotProduct, smul_dotProduct, hn', smul_eq_mul]
  ring

/-- **C60** (heat conduction) Otherwise it is that work plus `k` times the derivative along the normal of the temperature
`γ p / ((γ - 1) Cp ρ)`, for any density and pressure fields with the given gradients. -/
theorem visc_heat (U : St ℝ d) (G : Fin d → Fin d → ℝ) (gr gp n : Fin d → ℝ) (gamma mu mr : ℝ) (qcr : Bool) (k Cp : ℝ) (hU : U.1 ≠ 0)
    (rho p : ℝ → ℝ) (hrho : HasDerivAt rho (∑ i, gr i * n i) 0) (hp : HasDerivAt p (∑ i, gp i * n i) 0) (hr0 : rho 0 = U.1)
    (hp0 : p 0 = (primOf gamma U).2.2) :
    ∃ q, HasDerivAt (fun t => gamma * p t / ((gamma - 1) * Cp * rho t)) q 0 ∧
      (viscousFlux U G gr gp n false gamma mu mr qcr k Cp).2.2 =
        ∑ i, U.2.1 i / U.1 * (viscousFlux U G gr gp n false gamma mu mr qcr k Cp).2.1 i + k * q := by
  have hr : rho 0 ≠ 0 := by rw [hr0]; exact hU
  have hd := ((hp.const_mul gamma).mul ((hrho.inv hr).const_mul ((gamma - 1) * Cp)⁻¹))
  refine ⟨(gamma * ∑ i, gp i * n i) * (((gamma - 1) * Cp)⁻¹ * rho⁻¹ 0) +
      gamma * p 0 * (((gamma - 1) * Cp)⁻¹ * ((-∑ i, gr i * n i) / rho 0 ^ 2)), ?_, ?_⟩
  · refine hd.congr_of_eventuallyEq (Filter.Eventually.of_forall fun t => ?_)
    simp only [Pi.mul_apply, Pi.inv_apply]
    rw [div_eq_mul_inv, mul_inv]
  · rw [work_eq]
    congr 1
    congr 1
    have hpp : (gamma - 1) * (U.c4 - U.c0 * (1 / 2) * ((U.c0⁻¹ • U.cv) ⬝ᵥ (U.c0⁻¹ • U.cv))) = p 0 := by
      rw [hp0, smul_dotProduct, dotProduct_smul, show U.cv ⬝ᵥ U.cv = ∑ i, U.2.1 i * U.2.1 i from rfl]
      simp only [primOf, smul_eq_mul, St.c0, St.c4]
      field_simp
    have e1 : gp ⬝ᵥ n = ∑ i, gp i * n i := rfl
    have e2 : gr ⬝ᵥ n = ∑ i, gr i * n i := rfl
    simp only [viscGradT, Bool.false_eq_true, if_false]
    rw [hpp]
    simp only [smul_dotProduct, sub_dotProduct, smul_eq_mul, e1, e2]
    have hc : U.c0 = rho 0 := hr0.symm
    rw [hc]
    rcases eq_or_ne ((gamma - 1) * Cp) 0 with hz | hz
    · rw [hz]
      simp
    · have h3 : gamma - 1 ≠ 0 := left_ne_zero_of_mul hz
      have h4 : Cp ≠ 0 := right_ne_zero_of_mul hz
      simp only [Pi.inv_apply]
      field_simp
      ring

theorem stress0_rigid (G : Fin d → Fin d → ℝ) (mu : ℝ) (hG : ∀ i j, G i j = -G j i) : viscStress0 G mu = fun _ _ => 0 := by
  funext i j
  have htr : ∑ k, G k k = 0 := Finset.sum_eq_zero fun k _ => by linarith [hG k k]
  simp only [viscStress0, htr, mul_zero, ite_self, add_zero]
  rw [hG i j]
  ring

theorem qcrFix_zero (O : Fin d → Fin d → ℝ) (i j : Fin d) : qcrFix (fun _ _ => 0) O i j = 0 := by
  have he : ∀ a b, entry (d := d) (fun _ _ => 0) a b = 0 := fun a b => by simp [entry]
  simp only [qcrFix, he, sub_zero, mul_zero, zero_mul, add_zero, Finset.sum_const_zero, ite_self]

/-- **C60** (rigid motion) A gas that moves as a rigid body has no viscous stress, with or without the quadratic correction. -/
theorem visc_rigid (U : St ℝ d) (G : Fin d → Fin d → ℝ) (hG : ∀ i j, G i j = -G j i) (gr gp n : Fin d → ℝ) (ad : Bool) (gamma mu mr : ℝ)
    (qcr : Bool) (k Cp : ℝ) (i : Fin d) : (viscousFlux U G gr gp n ad gamma mu mr qcr k Cp).2.1 i = 0 := by
  simp only [viscousFlux]
  refine Finset.sum_eq_zero fun j _ => ?_
  simp only [viscStress, stress0_rigid G mu hG, qcrFix_zero]
  cases qcr <;> simp

/-- **C60** (Stokes' hypothesis) A uniformly expanding gas in three dimensions has no viscous stress. -/
theorem visc_dilation (U : St ℝ 3) (c : ℝ) (gr gp n : Fin 3 → ℝ) (ad : Bool) (gamma mu mr : ℝ) (qcr : Bool) (k Cp : ℝ) (i : Fin 3) :
    (viscousFlux U (fun i j => if i = j then c else 0) gr gp n ad gamma mu mr qcr k Cp).2.1 i = 0 := by
  have h0 : viscStress0 (fun i j : Fin 3 => if i = j then c else 0) mu = fun _ _ => 0 := by
    funext i j
    simp only [viscStress0, if_true, Finset.sum_const, Finset.card_univ, Fintype.card_fin, eq_comm (a := j)]
    by_cases h : i = j
    · simp only [if_pos h]
      norm_num
      ring
    · simp only [if_neg h]
      ring
  simp only [viscousFlux]
  refine Finset.sum_eq_zero fun j _ => ?_
  simp only [viscStress, h0, qcrFix_zero]
  cases qcr <;> simp

/-- **C60** (quadratic correction) In two and three dimensions the correction is `O τᵀ + τ Oᵀ`, as in Spalart's model. -/
theorem qcr_formula (hd : d = 2 ∨ d = 3) (T O : Fin d → Fin d → ℝ) (hT : ∀ i j, T i j = T j i) (hO : ∀ i j, O i j = -O j i) (i j : Fin d) :
    qcrFix T O i j + qcrFix T O j i = ∑ k, (O i k * T j k + T i k * O j k) := by
  have hd0 : ∀ i, O i i = 0 := fun i => by linarith [hO i i]
  rcases hd with rfl | rfl
  · have hO1 := hO 1 0
    have hT1 := hT 1 0
    fin_cases i <;> fin_cases j <;> simp [qcrFix, entry, Fin.sum_univ_two, hd0, hO1, hT1] <;> ring
  · have hO1 := hO 1 0
    have hO2 := hO 2 0
    have hO3 := hO 2 1
    have hT1 := hT 1 0
    have hT2 := hT 2 0
    have hT3 := hT 2 1
    fin_cases i <;> fin_cases j <;> simp [qcrFix, entry, Fin.sum_univ_three, hd0, hO1, hT1, hO2, hT2, hO3, hT3] <;> ring

/-- **C60** (dissipation) The power of the viscous stress on the velocity gradient is not negative, with or without the quadratic
correction. -/
theorem visc_dissipation (hd : d ≤ 3) (U : St ℝ d) (G : Fin d → Fin d → ℝ) (gr gp : Fin d → ℝ) (ad : Bool) (gamma mu mr : ℝ) (qcr : Bool)
    (hq : qcr = true → d = 2 ∨ d = 3) (k Cp : ℝ) (hmu : 0 ≤ mu) :
    0 ≤ ∑ j, ∑ i, (viscousFlux U G gr gp (fun l => if l = j then 1 else 0) ad gamma mu mr qcr k Cp).2.1 i * G j i := by
  have hT : ∀ i j, (viscousFlux U G gr gp (fun l => if l = j then 1 else 0) ad gamma mu mr qcr k Cp).2.1 i =
      viscStress G mu mr qcr i j := fun i j => by simp [viscousFlux]
  simp only [hT]
  have h0 : 0 ≤ ∑ j, ∑ i, viscStress0 G mu i j * G j i := by
    have hsym : ∑ j, ∑ i, viscStress0 G mu i j * G j i = ∑ j, ∑ i, viscStress0 G mu i j * ((G j i + G i j) / 2) := by
      have h1 : ∑ j, ∑ i, viscStress0 G mu i j * G i j = ∑ j, ∑ i, viscStress0 G mu i j * G j i := by
        rw [Finset.sum_comm]
        exact Finset.sum_congr rfl fun i _ => Finset.sum_congr rfl fun j _ => by rw [stress0_symm]
      have h2 : ∑ j, ∑ i, viscStress0 G mu i j * ((G j i + G i j) / 2) =
          (∑ j, ∑ i, viscStress0 G mu i j * G j i + ∑ j, ∑ i, viscStress0 G mu i j * G i j) / 2 := by
        simp only [← Finset.sum_add_distrib, Finset.sum_div]
        exact Finset.sum_congr rfl fun i _ => Finset.sum_congr rfl fun j _ => by ring
      rw [h2, h1]
      ring
    have hexp : ∑ j, ∑ i, viscStress0 G mu i j * ((G j i + G i j) / 2) =
        mu * (∑ j, ∑ i, (G j i + G i j) ^ 2 / 2) - 2 / 3 * mu * (∑ l, G l l) ^ 2 := by
      have : ∀ j : Fin d, ∑ i, viscStress0 G mu i j * ((G j i + G i j) / 2) = mu * (∑ i, (G j i + G i j) ^ 2 / 2) -
          2 / 3 * mu * (∑ l, G l l) * G j j := fun j => by
        have e : ∀ i, viscStress0 G mu i j * ((G j i + G i j) / 2) = mu * ((G j i + G i j) ^ 2 / 2) +
            (if i = j then -(2 / 3 * mu * (∑ l, G l l) * G j j) else 0) := fun i => by
          simp only [viscStress0]
          split
          · rename_i h
            subst h
            ring
          · ring
        simp only [e, Finset.sum_add_distrib, Finset.sum_ite_eq', Finset.mem_univ, if_true, Finset.mul_sum]
        ring
      simp only [this, Finset.sum_sub_distrib, ← Finset.mul_sum]
      ring
    rw [hsym, hexp]
    have hdiag : ∑ j, (2 * G j j ^ 2) ≤ ∑ j, ∑ i, (G j i + G i j) ^ 2 / 2 := by
      refine Finset.sum_le_sum fun j _ => ?_
      have := Finset.single_le_sum (f := fun i => (G j i + G i j) ^ 2 / 2) (fun i _ => by positivity) (Finset.mem_univ j)
      refine le_trans (le_of_eq ?_) this
      ring
    have hcs : (∑ l, G l l) ^ 2 ≤ d * ∑ j, G j j ^ 2 := by
      have := sq_sum_le_card_mul_sum_sq (s := (Finset.univ : Finset (Fin d))) (f := fun l => G l l)
      simpa using this
    have hd' : (d : ℝ) ≤ 3 := by exact_mod_cast hd
    have hs0 : 0 ≤ ∑ j, G j j ^ 2 := Finset.sum_nonneg fun j _ => sq_nonneg _
    rw [← Finset.mul_sum] at hdiag
    have hcs3 : (∑ l, G l l) ^ 2 ≤ 3 * ∑ j, G j j ^ 2 := hcs.trans (mul_le_mul_of_nonneg_right hd' hs0)
    have : 0 ≤ (∑ j, ∑ i, (G j i + G i j) ^ 2 / 2) - 2 / 3 * (∑ l, G l l) ^ 2 := by linarith
    nlinarith [mul_nonneg hmu this]
  cases qcr with
  | false =>
    simpa only [viscStress, Bool.false_eq_true, if_false] using h0
  | true =>
    have hz : ∑ j, ∑ i, (qcrFix (viscStress0 G mu) (viscRot G) i j + qcrFix (viscStress0 G mu) (viscRot G) j i) * G j i = 0 := by
      simp only [qcr_formula (hq rfl) _ _ (stress0_symm G mu) (viscRot_anti G)]
      simp only [viscRot]
      generalize √(∑ i, ∑ j, G i j * G i j) + verySmall = b
      rcases hq rfl with rfl | rfl
      · simp [viscStress0, Fin.sum_univ_two]
        ring
      · simp [viscStress0, Fin.sum_univ_three]
        ring
    have e : ∑ j, ∑ i, viscStress G mu mr true i j * G j i = ∑ j, ∑ i, viscStress0 G mu i j * G j i - 3 / 10 * mr *
        ∑ j, ∑ i, (qcrFix (viscStress0 G mu) (viscRot G) i j + qcrFix (viscStress0 G mu) (viscRot G) j i) * G j i := by
      simp only [viscStress, if_true, Finset.mul_sum, ← Finset.sum_sub_distrib]
      refine Finset.sum_congr rfl fun i _ => Finset.sum_congr rfl fun j _ => ?_
      ring
    rw [e, hz, mul_zero, sub_zero]
    exact h0

/-- non-vacuity: a shear flow at density 2 has a viscous traction, and density and pressure fields as in `visc_heat` exist. -/
example : (viscousFlux (2, ![1, 0], 5) (fun i j => if i = 1 ∧ j = 0 then 1 else 0) 0 ![0, 1] ![0, 1] false (7 / 5) 3 0 false 1 1 : St ℝ 2).2.1 0 = 3 ∧
    HasDerivAt (fun _ : ℝ => (2 : ℝ)) (∑ i, (0 : Fin 2 → ℝ) i * (![0, 1] : Fin 2 → ℝ) i) 0 := by
  refine ⟨?_, ?_⟩
  · simp [viscousFlux, viscStress, viscStress0, Fin.sum_univ_two]
  · simpa using hasDerivAt_const (0 : ℝ) (2 : ℝ)

end DNDSR.Gas

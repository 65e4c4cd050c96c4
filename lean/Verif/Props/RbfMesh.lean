import Verif.Props.Rbf
import Mathlib.Analysis.SpecialFunctions.Pow.Real
import Mathlib.Tactic.Positivity

/-!
# C107: the kernels, the mesh that follows its boundary, and where it does not
-/

namespace DNDSR.Rbf

open DNDSR DNDSR.Rot Matrix

/-- **C107** The kernels that count as compact are those that vanish from the radius on. -/
theorem compact_iff (k : Kernel) (hk : k ≠ .unknown) : isCompact k = true ↔ ∀ r, 1 ≤ r → phi k r = 0 := by
  have hb : ∀ r : ℝ, 1 ≤ r → below r = 0 := fun r hr => if_neg (not_lt.mpr hr)
  cases k
  case unknown => exact absurd rfl hk
  case distance => simp only [isCompact, phi]; constructor
                   · intro h; exact absurd h (by decide)
                   · intro h; exact absurd (h 1 le_rfl) (by norm_num)
  case distanceA1 => simp only [isCompact, phi]; constructor
                     · intro h; exact absurd h (by decide)
                     · intro h; exact absurd (h 1 le_rfl) (by norm_num)
  case inversedDistanceA1 => simp only [isCompact, phi]; constructor
                             · intro h; exact absurd h (by decide)
                             · intro h; exact absurd (h 1 le_rfl) (by norm_num)
  case gaussian => simp only [isCompact, phi]; constructor
                   · intro h; exact absurd h (by decide)
                   · intro h; exact absurd (h 1 le_rfl) (Real.exp_pos _).ne'
  all_goals exact ⟨fun _ r hr => by simp [phi, hb r hr], fun _ => by decide⟩

/-- **C107** Kernels other than the two growing ones are positive inside the radius and never grow with the distance. -/
theorem phi_decreasing (k : Kernel) (hk : k ≠ .unknown) (h1 : k ≠ .distance) (h2 : k ≠ .distanceA1) :
    (∀ r, 0 ≤ r → r < 1 → 0 < phi k r) ∧ ∀ r s, 0 ≤ r → r ≤ s → phi k s ≤ phi k r := by
  have hb : ∀ r : ℝ, 1 ≤ r → below r = 0 := fun r hr => if_neg (not_lt.mpr hr)
  have ha : ∀ r : ℝ, r < 1 → below r = 1 := fun r hr => if_pos hr
  -- a bounded kernel decreases if its formula decreases and is positive inside
  have comp : ∀ g : ℝ → ℝ, (∀ r, 0 ≤ r → r < 1 → 0 < g r) → (∀ r s, 0 ≤ r → r ≤ s → s < 1 → g s ≤ g r) →
      (∀ r, 0 ≤ r → r < 1 → 0 < g r * below r) ∧ ∀ r s, 0 ≤ r → r ≤ s → g s * below s ≤ g r * below r := by
    intro g hp hd
    refine ⟨fun r h0 h1 => by rw [ha r h1, mul_one]; exact hp r h0 h1, fun r s h0 hrs => ?_⟩
    by_cases hs : s < 1
    · rw [ha s hs, ha r (lt_of_le_of_lt hrs hs), mul_one, mul_one]; exact hd r s h0 hrs hs
    · rw [hb s (not_lt.mp hs), mul_zero]
      by_cases hr : r < 1
      · rw [ha r hr, mul_one]; exact (hp r h0 hr).le
      · rw [hb r (not_lt.mp hr), mul_zero]
  cases k
  case unknown => exact absurd rfl hk
  case distance => exact absurd rfl h1
  case distanceA1 => exact absurd rfl h2
  case inversedDistanceA1 =>
    refine ⟨fun r h0 _ => ?_, fun r s h0 hrs => ?_⟩
    · simp only [phi]; positivity
    · simp only [phi]; exact inv_anti₀ (by linarith) (by linarith)
  case gaussian =>
    refine ⟨fun r _ _ => Real.exp_pos _, fun r s h0 hrs => ?_⟩
    simp only [phi]
    rw [Real.exp_le_exp]
    nlinarith
  case inversedDistanceA1Compact =>
    simp only [phi]
    refine comp (fun r => (0.2 + r)⁻¹ - 1 / 1.2) (fun r h0 h1 => ?_) (fun r s h0 hrs _ => ?_)
    · have : (1.2 : ℝ)⁻¹ < (0.2 + r)⁻¹ := inv_strictAnti₀ (by linarith) (by linarith)
      rw [one_div]; linarith
    · have : (0.2 + s)⁻¹ ≤ (0.2 + r)⁻¹ := inv_anti₀ (by linarith) (by linarith)
      linarith
  case cpc0 =>
    simp only [phi]
    refine comp (fun r => (1 - r) ^ 2) (fun r h0 h1 => ?_) (fun r s h0 hrs h1 => ?_)
    · have : 0 < 1 - r := by linarith
      positivity
    nlinarith
  case cpc2 =>
    simp only [phi]
    refine comp (fun r => ((1 - r) ^ 2) ^ 2 * (r * 4 + 1)) (fun r h0 h1 => ?_) (fun r s h0 hrs h1 => ?_)
    · have : 0 < 1 - r := by linarith
      positivity
    obtain ⟨a, rfl⟩ : ∃ a, r = 1 - a := ⟨1 - r, by ring⟩
    obtain ⟨b, rfl⟩ : ∃ b, s = 1 - b := ⟨1 - s, by ring⟩
    have ha1 : a ≤ 1 := by linarith
    have hb0 : 0 < b := by linarith
    have hba : b ≤ a := by linarith
    have hb1 : b ≤ 1 := by linarith
    have ha0 : 0 ≤ a := by linarith
    have k1 : 0 ≤ a ^ 3 * (1 - a) := mul_nonneg (by positivity) (by linarith)
    have k2 : 0 ≤ a ^ 3 * (1 - b) := mul_nonneg (by positivity) (by linarith)
    have k3 : 0 ≤ a ^ 2 * b * (1 - a) := mul_nonneg (by positivity) (by linarith)
    have k4 : 0 ≤ a ^ 2 * b * (1 - b) := mul_nonneg (by positivity) (by linarith)
    have k5 : 0 ≤ a * b ^ 2 * (1 - a) := mul_nonneg (by positivity) (by linarith)
    have k6 : 0 ≤ a * b ^ 2 * (1 - b) := mul_nonneg (by positivity) (by linarith)
    have k7 : 0 ≤ b ^ 3 * (1 - a) := mul_nonneg (by positivity) (by linarith)
    have k8 : 0 ≤ b ^ 3 * (1 - b) := mul_nonneg (by positivity) (by linarith)
    have k : 0 ≤ 5 * (a ^ 3 + a ^ 2 * b + a * b ^ 2 + b ^ 3) - 4 * (a ^ 4 + a ^ 3 * b + a ^ 2 * b ^ 2 + a * b ^ 3 + b ^ 4) := by
      linarith
    have := mul_nonneg (sub_nonneg.mpr hba) k
    linarith

/-- **C107** With a compact kernel a node is not moved where every point found is at least the radius away, whatever the solver does. -/
theorem far_node_stays {n : Nat} (S : Solver) (o : Info) (hk : o.kernel ≠ .unknown) (hc : isCompact o.kernel = true) (hR : 0 < o.radius) (h : 0 < n)
    (xs ds : Fin n → V3) (x : V3) (hx : ∀ i, o.radius ≤ Rot.norm (x - xs i)) : smoothDisp S o xs ds x = .ok 0 := by
  have hz := (compact_iff o.kernel hk).mp hc
  unfold smoothDisp
  rw [dif_pos h]
  split
  · refine congrArg Res.ok ?_
    show value _ _ _ _ _ = _
    rw [value_noPoly]
    refine Finset.sum_eq_zero fun i _ => ?_
    rw [sub_sub_sub_cancel_right, radial, hz _ ((one_le_div hR).mpr (hx i)), zero_smul]
  · rfl

/-- **C107** With a compact kernel whose radius is at least one, every node is moved by the interpolation.  What is missing: smaller radii, see
`small_radius_cut`, and kernels that are not compact, which the bound cuts off. -/
theorem compact_exact_partial {n : Nat} (S : Solver) (hS : S.Correct) (o : Info) (hk : o.kernel ≠ .unknown) (hc : isCompact o.kernel = true)
    (hR : 1 ≤ o.radius) (h : 0 < n) (xs ds : Fin n → V3) (hs : Solvable (radial o) xs) (u : V3 → V3) (hu : Interpolates (radial o) xs ds u) (x : V3) :
    smoothDisp S o xs ds x = .ok (u x) := by
  by_cases hx : ∃ i, Rot.norm (x - xs i) < o.bound
  · exact (smoothDisp_spec S hS o hk h xs ds hs u hu x).1 hx
  · push Not at hx
    rw [(smoothDisp_spec S hS o hk h xs ds hs u hu x).2 hx]
    refine congrArg Res.ok ?_
    obtain ⟨⟨a, ha⟩, -⟩ := hu
    rw [ha]
    symm
    refine Finset.sum_eq_zero fun i _ => ?_
    have : o.radius ≤ Rot.norm (x - xs i) := by
      have := hx i
      simp only [Info.bound, hc, if_true, mul_one] at this
      nlinarith
    rw [radial, (compact_iff o.kernel hk).mp hc _ ((one_le_div (by linarith)).mpr this), zero_smul]

/-- **C107** Moving the points and the node together does not change the displacement. -/
theorem smoothDisp_translate {n : Nat} (S : Solver) (o : Info) (xs ds : Fin n → V3) (x v : V3) :
    smoothDisp S o (fun i => xs i + v) ds (x + v) = smoothDisp S o xs ds x := by
  unfold smoothDisp
  by_cases h : 0 < n
  · have hm : mean (fun i => xs i + v) = mean xs + v := by
      have : (n : ℝ) ≠ 0 := by exact_mod_cast h.ne'
      ext k
      simp only [mean, Pi.smul_apply, Finset.sum_apply, Pi.add_apply, smul_eq_mul, Finset.sum_add_distrib, Finset.sum_const, Finset.card_univ,
        Fintype.card_fin, nsmul_eq_mul]
      field_simp
      simp
    have hr : rMin h (fun i => xs i + v) (x + v) = rMin h xs x := by
      simp only [rMin, Pi.add_apply, add_sub_add_right_eq_sub]
    rw [dif_pos h, dif_pos h, hr, hm]
    simp only [add_sub_add_right_eq_sub]
  · rw [dif_neg h, dif_neg h]

/-- **C107** With the polynomial part, fields that are affine are met everywhere, not only at the points, if the system is regular. -/
theorem poly_reproduces {n : Nat} (S : Solver) (hS : S.Correct) (k : Kernel) (R : ℝ) (xs : Fin n → V3) (hd : IsUnit (polySystem k R xs).det)
    (b : V3) (B : M3) (q : V3) : value k R xs (solveCoefs S k R xs fun i => b + B *ᵥ xs i) q = b + B *ᵥ q := by
  let c : Coefs n := Matrix.fromRows 0 (Matrix.of fun i j => Fin.cases (motive := fun _ => ℝ) (b j) (fun a => B j a) i)
  have hc : polySystem k R xs * c = Matrix.fromRows (Matrix.of fun i => b + B *ᵥ xs i) 0 := by
    simp only [polySystem, c, Matrix.fromBlocks_mul_fromRows, Matrix.mul_zero, zero_add, Matrix.zero_mul, add_zero]
    congr 1
    ext i j
    rw [mul_apply, Fin.sum_univ_succ]
    simp only [transpose_apply, polyRows, of_apply, Fin.cases_zero, Fin.cases_succ, one_mul, Pi.add_apply, mulVec, dotProduct]
    congr 1
    exact Finset.sum_congr rfl fun a _ => mul_comm _ _
  have hsol : solveCoefs S k R xs (fun i => b + B *ᵥ xs i) = c := by
    have h1 := hS (polySystem k R xs) (Matrix.fromRows (Matrix.of fun i => b + B *ᵥ xs i) 0) hd
    have h2 := congrArg (fun m => (polySystem k R xs)⁻¹ * m) (h1.trans hc.symm)
    simpa [← Matrix.mul_assoc, Matrix.nonsing_inv_mul _ hd, solveCoefs] using h2
  rw [hsol]
  ext j
  simp only [value, c, fromRows_apply_inl, fromRows_apply_inr, Matrix.zero_apply, mul_zero, Finset.sum_const_zero, zero_add, of_apply, Fin.cases_zero,
    Fin.cases_succ, Pi.add_apply, mulVec, dotProduct]
  congr 1
  exact Finset.sum_congr rfl fun a _ => mul_comm _ _

end DNDSR.Rbf
